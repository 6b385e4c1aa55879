import Verif.Model.SockConn
import Verif.Props.SyncClient
import Verif.Lemmas.AioClient
/-!
# C101-C103: `SocketConnection.recvexactly`, waiting for sockets, dropped connections
-/
namespace Bolt
open Spec

/-! ## C101 -/

/-- what is known about a call of `recvexactly` at any time -/
structure ExactInv (size : Int) (stream : Bytes) (s : ExactSt) : Prop where
  split : s.buf ++ s.rest = stream
  bound : s.buf.length ≤ size.toNat
  waiting : s.out = none → (s.buf.length : Int) < size
  done : ∀ b, s.out = some (.ok b) → b = s.buf ∧ s.buf.length = size.toNat

theorem exactTest_inv {size : Int} {stream : Bytes} {s : ExactSt} (h1 : s.buf ++ s.rest = stream)
    (h2 : s.buf.length ≤ size.toNat) (h3 : s.out = none) : ExactInv size stream (exactTest size s) := by
  unfold exactTest
  split
  · next h => exact ⟨h1, h2, fun _ => h, fun b hb => (by rw [h3] at hb; cases hb)⟩
  · next h =>
    refine ⟨h1, h2, fun hn => (by cases hn), fun b hb => ?_⟩
    injection hb with hb
    injection hb with hb
    exact ⟨hb.symm, by dsimp only; omega⟩

theorem exactStep_inv {size : Int} {stream : Bytes} {s : ExactSt} (h : ExactInv size stream s) (ev : RecvEv) :
    ExactInv size stream (exactStep size s ev) := by
  unfold exactStep
  split
  · exact h
  · next ho =>
    have ho : s.out = none := by simpa using ho
    cases ev with
    | timeout => exact h
    | fail e => exact ⟨h.split, h.bound, fun hn => (by cases hn), fun b hb => (by cases hb)⟩
    | recv n =>
      have hw := h.waiting ho
      have hs := h.split
      refine exactTest_inv ?_ ?_ ho
      · dsimp only
        rw [List.append_assoc, ← hs]
        congr 1
        generalize min (n + 1) (size - s.buf.length).toNat = m
        rw [List.length_take]
        by_cases hle : m ≤ s.rest.length
        · rw [Nat.min_eq_left hle, List.take_append_drop]
        · rw [Nat.min_eq_right (by omega), List.drop_length, List.append_nil, List.take_of_length_le (by omega)]
      · dsimp only
        rw [List.length_append, List.length_take]
        omega

theorem exactRun_inv (size : Int) (stream : Bytes) (evs : List RecvEv) :
    ExactInv size stream (exactRun size stream evs) := by
  unfold exactRun
  have h0 : ExactInv size stream (exactTest size { rest := stream }) := exactTest_inv rfl (Nat.zero_le _) rfl
  generalize exactTest size { rest := stream } = s at h0
  induction evs generalizing s with
  | nil => exact h0
  | cons e evs ih => exact ih _ (exactStep_inv h0 e)

/-- C101. When `recvexactly(size)` returns, it returns exactly the next `size` bytes of the stream, and exactly these
have been consumed, however the bytes were cut. -/
theorem C101_exact (size : Int) (stream : Bytes) (evs : List RecvEv) (b : Bytes)
    (h : (exactRun size stream evs).out = some (.ok b)) :
    b.length = size.toNat ∧ b ++ (exactRun size stream evs).rest = stream := by
  have i := exactRun_inv size stream evs
  obtain ⟨rfl, hl⟩ := i.done b h
  exact ⟨hl, i.split⟩

theorem exactRun_snoc (size : Int) (stream : Bytes) (evs : List RecvEv) (e : RecvEv) :
    exactRun size stream (evs ++ [e]) = exactStep size (exactRun size stream evs) e := by
  unfold exactRun
  rw [List.foldl_append]
  rfl

/-- every round consumes at least one byte as long as there are any -/
theorem exact_progress (size : Int) (stream : Bytes) (ns : List Nat) :
    (exactRun size stream (chunked ns)).out = some (.ok (exactRun size stream (chunked ns)).buf) ∨
    ((exactRun size stream (chunked ns)).out = none ∧
      (ns.length ≤ (exactRun size stream (chunked ns)).buf.length ∨ (exactRun size stream (chunked ns)).rest = [])) := by
  induction ns using snoc_induct with
  | nil =>
    unfold chunked exactRun exactTest
    simp only [List.map_nil, List.foldl_nil]
    split
    · exact .inr ⟨rfl, .inl (Nat.zero_le _)⟩
    · exact .inl rfl
  | snoc ns n ih =>
    have e : chunked (ns ++ [n]) = chunked ns ++ [.recv n] := by unfold chunked; rw [List.map_append]; rfl
    rw [e, exactRun_snoc]
    generalize hs : exactRun size stream (chunked ns) = s at ih
    have hi := exactRun_inv size stream (chunked ns)
    rw [hs] at hi
    unfold exactStep
    rcases ih with h | ⟨h1, h2⟩
    · rw [h]; exact .inl h
    · rw [h1]
      simp only [Option.isSome_none, Bool.false_eq_true, if_false]
      unfold exactTest
      split
      · refine .inr ⟨rfl, ?_⟩
        dsimp only
        have hw := hi.waiting h1
        by_cases hr : s.rest = []
        · right; rw [hr]; simp
        · left
          rw [List.length_append, List.length_append, List.length_take]
          have : 0 < s.rest.length := List.length_pos_iff.2 hr
          have h3 : ns.length ≤ s.buf.length := by
            rcases h2 with h2 | h2
            · exact h2
            · exact absurd h2 hr
          simp only [List.length_singleton]
          omega
      · exact .inl rfl

/-- C101, the other direction: when the stream has `size` bytes, the call has returned after at most `size` rounds. -/
theorem C101_returns (size : Int) (stream : Bytes) (ns : List Nat) (hs : size.toNat ≤ stream.length)
    (hn : size.toNat ≤ ns.length) :
    (exactRun size stream (chunked ns)).out = some (.ok (stream.take size.toNat)) := by
  have i := exactRun_inv size stream (chunked ns)
  have ok : (exactRun size stream (chunked ns)).out = some (.ok (exactRun size stream (chunked ns)).buf) := by
    rcases exact_progress size stream ns with h | ⟨h1, h2⟩
    · exact h
    · have hw := i.waiting h1
      rcases h2 with h2 | h2
      · omega
      · have := i.split
        rw [h2, List.append_nil] at this
        rw [this] at hw
        omega
  obtain ⟨h1, h2⟩ := C101_exact size stream _ _ ok
  have h3 : stream.take size.toNat = (exactRun size stream (chunked ns)).buf := by
    conv => lhs; rw [← h2]
    exact List.take_left' h1
  rw [ok, h3]

/-- C101: two calls one after the other read consecutive parts of the stream. -/
theorem C101_consecutive (m n : Int) (stream : Bytes) (evs evs' : List RecvEv) (b b' : Bytes)
    (h : (exactRun m stream evs).out = some (.ok b))
    (h' : (exactRun n (exactRun m stream evs).rest evs').out = some (.ok b')) :
    b.length = m.toNat ∧ b'.length = n.toNat ∧ b ++ b' <+: stream := by
  obtain ⟨h1, h2⟩ := C101_exact m stream evs b h
  obtain ⟨h3, h4⟩ := C101_exact n _ evs' b' h'
  refine ⟨h1, h3, (exactRun n (exactRun m stream evs).rest evs').rest, ?_⟩
  rw [List.append_assoc, h4, h2]

/-- Five bytes asked for, of seven; cut into pieces of at most three, two, one. -/
example :
    (exactRun 5 [1, 2, 3, 4, 5, 6, 7] (chunked [2, 1])).out = some (.ok [1, 2, 3, 4, 5]) ∧
    (exactRun 5 [1, 2, 3, 4, 5, 6, 7] (chunked [2])).out = none ∧
    (exactRun 5 [1, 2, 3, 4, 5, 6, 7] (chunked [0, 0, 0, 0, 9])).rest = [6, 7] ∧
    (exactRun 0 [1] []).out = some (.ok []) := by decide

/-! ## C102 -/

/-- C102 as stated: when the peer has closed, after having sent `stream`, the call ends after some number of rounds
(each round is made because the socket is readable: there are bytes, or the end of the stream). -/
def C102_full : Prop :=
  ∀ (size : Int) (stream : Bytes), ∃ N : Nat, ∀ ns : List Nat, N ≤ ns.length →
    (exactRun size stream (chunked ns)).out ≠ none

/-- C102: with too few bytes it never ends, it goes round and round. -/
theorem C102_never_ends (size : Int) (stream : Bytes) (ns : List Nat) (h : (stream.length : Int) < size) :
    (exactRun size stream (chunked ns)).out = none := by
  have i := exactRun_inv size stream (chunked ns)
  rcases exact_progress size stream ns with h1 | ⟨h1, -⟩
  · obtain ⟨h2, h3⟩ := C101_exact size stream _ _ h1
    have := congrArg List.length h3
    rw [List.length_append] at this
    omega
  · exact h1

/-- C102 is violated: the peer closes at once. -/
theorem C102_violated : ¬ C102_full := by
  intro h
  obtain ⟨N, hN⟩ := h 1 []
  exact hN (List.replicate N 0) (by rw [List.length_replicate]; exact Nat.le_refl _) (C102_never_ends 1 [] _ (by decide))

/-- C102, what holds: the call ends when the bytes are there, and at once when the socket fails (for example because the
connection was reset). Missing: the end of the stream. -/
theorem C102_ends_partial (size : Int) (stream : Bytes) :
    (∀ ns : List Nat, size.toNat ≤ stream.length → size.toNat ≤ ns.length →
      (exactRun size stream (chunked ns)).out ≠ none) ∧
    (∀ evs e, (exactRun size stream (evs ++ [.fail e])).out ≠ none) := by
  refine ⟨fun ns h1 h2 => by rw [C101_returns size stream ns h1 h2]; simp, fun evs e => ?_⟩
  rw [exactRun_snoc]
  unfold exactStep
  split
  · next h => exact fun h' => by rw [h'] at h; cases h
  · simp

/-- Three of five bytes and the end of the stream: twenty rounds later still no result; a reset ends the call. -/
example :
    (exactRun 5 [1, 2, 3] (chunked (List.replicate 20 4))).out = none ∧
    (exactRun 5 [1, 2, 3] (chunked (List.replicate 20 4) ++ [.fail .connectionError])).out =
      some (.error .connectionError) := by decide

/-! ## C103 -/

/-- Can these sockets be waited for: none closed, all different. -/
def Spec.Waitable (l : List Sock) : Prop := (∀ s ∈ l, s.closed = false) ∧ (l.map Sock.fd).Nodup

/-- the sockets that `socks` stands for -/
def Spec.waitSocks : WaitArg → Option (List Sock)
  | .one s => some [s]
  | .many l => some l
  | .other => none

theorem registerAll_ok (seen : List Nat) (l : List Sock) :
    registerAll seen l = .ok () ↔ Waitable l ∧ ∀ s ∈ l, s.fd ∉ seen := by
  induction l generalizing seen with
  | nil => simp [registerAll, Waitable]
  | cons s l ih =>
    unfold registerAll
    by_cases hc : s.closed
    · simp [hc, Waitable]
    · by_cases hs : s.fd ∈ seen
      · simp [hc, hs]
      · simp only [hc, if_false, List.contains_eq_mem, hs, decide_false, Bool.false_eq_true]
        rw [ih]
        unfold Waitable
        simp only [List.mem_cons, forall_eq_or_imp, List.map_cons, List.nodup_cons, List.mem_map, not_or, not_exists,
          not_and]
        constructor
        · rintro ⟨⟨h1, h2⟩, h3⟩
          exact ⟨⟨⟨by simpa using hc, h1⟩, fun x hx e => (h3 x hx).1 e, h2⟩, hs, fun x hx => (h3 x hx).2⟩
        · rintro ⟨⟨⟨-, h1⟩, h4, h2⟩, -, h3⟩
          exact ⟨⟨h1, h2⟩, fun x hx => ⟨fun e => h4 x hx e, h3 x hx⟩⟩

theorem registerAll_error (seen : List Nat) (l : List Sock) (e : PyExc) (h : registerAll seen l = .error e) :
    e = .socketValueError := by
  induction l generalizing seen with
  | nil => cases h
  | cons s l ih =>
    unfold registerAll at h
    split at h
    · injection h with h; exact h.symm
    · split at h
      · injection h with h; exact h.symm
      · exact ih _ h

/-- C103. Waiting gives exactly the sockets that are ready (without a timeout: at least one); it raises
`SocketValueError` exactly when a socket is closed or given twice. -/
theorem C103_wait (arg : WaitArg) (l : List Sock) (ev : IoEvent) (poll : Bool) (ha : waitSocks arg = some l) :
    (∀ e, waitForIo arg ev poll = .raise e ↔ e = .socketValueError ∧ ¬ Waitable l) ∧
    (∀ r, waitForIo arg ev poll = .ok r → (∀ s, s ∈ r ↔ s ∈ l ∧ s.ready ev = true) ∧ (poll = false → r ≠ [])) ∧
    (Waitable l → (poll = true ∨ ∃ s ∈ l, s.ready ev = true) → ∃ r, waitForIo arg ev poll = .ok r) := by
  have key : waitForIo arg ev poll =
      match registerAll [] l with
      | .error e => .raise e
      | .ok _ =>
        if (l.filter fun s => s.ready ev).isEmpty && !poll then .hang else .ok (l.filter fun s => s.ready ev) := by
    cases arg with
    | other => cases ha
    | many l' => injection ha with ha; subst ha; rfl
    | one s =>
      injection ha with ha
      subst ha
      unfold waitForIo
      dsimp only
      cases hr : registerAll [] [s] with
      | error e => rfl
      | ok u =>
        dsimp only
        cases hv : s.ready ev <;> cases poll <;> simp [hv]
  rw [key]
  cases hr : registerAll [] l with
  | error e =>
    have he := registerAll_error _ _ _ hr
    subst he
    have hw : ¬ Waitable l := fun hw => by
      have := (registerAll_ok [] l).2 ⟨hw, by simp⟩
      rw [this] at hr
      cases hr
    refine ⟨fun e => ⟨fun h => ?_, fun h => by rw [h.1]⟩, fun r h => (by cases h), fun h => absurd h hw⟩
    injection h with h
    exact ⟨h.symm, hw⟩
  | ok u =>
    have hw := ((registerAll_ok [] l).1 hr).1
    dsimp only
    refine ⟨fun e => ⟨fun h => ?_, fun h => absurd hw h.2⟩, fun r h => ?_, fun _ hp => ?_⟩
    · split at h <;> cases h
    · split at h
      · cases h
      · next hc =>
        injection h with h
        subst h
        refine ⟨fun s => by rw [List.mem_filter], fun hp he => hc ?_⟩
        rw [he, hp]
        rfl
    · rw [if_neg]
      · exact ⟨_, rfl⟩
      · intro hc
        rw [Bool.and_eq_true, List.isEmpty_iff] at hc
        rcases hp with hp | ⟨s, h1, h2⟩
        · rw [hp] at hc; exact absurd hc.2 (by decide)
        · have : s ∈ l.filter fun s => s.ready ev := List.mem_filter.2 ⟨h1, h2⟩
          rw [hc.1] at this
          cases this

/-- C103. A connection counts as dropped exactly when its socket is `None`, closed, or has something to read (the end of
the stream, or bytes nobody has asked for). -/
theorem C103_dropped (a : SockAttr) :
    isConnectionDropped a = true ↔ a = .none ∨ ∃ s, a = .sock s ∧ (s.closed = true ∨ s.readable = true) := by
  cases a with
  | missing => simp [isConnectionDropped]
  | none => simp [isConnectionDropped]
  | sock s =>
    obtain ⟨fd, c, r, w⟩ := s
    cases c <;> cases r <;> simp [isConnectionDropped, waitForIo, registerAll, Sock.ready]

/-- Two of three sockets are readable; a socket given twice, a closed one. -/
example :
    let a : Sock := { fd := 3, readable := true }
    let b : Sock := { fd := 4 }
    let c : Sock := { fd := 5, readable := true, writable := true }
    waitForIo (.many [a, b, c]) .read false = .ok [a, c] ∧ waitForIo (.many [a, b]) .write false = .hang ∧
    waitForIo (.one b) .read true = .ok [] ∧ waitForIo (.many [a, b, a]) .read true = .raise .socketValueError ∧
    waitForIo (.one { b with closed := true }) .write false = .raise .socketValueError ∧
    isConnectionDropped (.sock b) = false ∧ isConnectionDropped (.sock a) = true := by decide

end Bolt
