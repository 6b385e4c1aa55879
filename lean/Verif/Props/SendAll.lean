import Verif.Model.SendAll
import Verif.Props.SockConn
import Verif.Lemmas.AioClient
/-!
# C177: `sendall` sends all bytes
-/
namespace Bolt
open Spec

namespace Spec

/-- nothing but room or the lack of it: the socket does not fail -/
def NoFail (evs : List PutEv) : Prop := ∀ e, PutEv.fail e ∉ evs

/-- a socket that can be written to -/
def Writable (s : Sock) : Prop := s.closed = false ∧ s.writable = true

/-- how much the operating system was willing to take in all -/
def roomFor : List PutEv → Nat
  | [] => 0
  | .took n :: evs => n + 1 + roomFor evs
  | _ :: evs => roomFor evs

end Spec

/-- C177 as listed: as long as the socket does not fail, `sendall` does not raise -/
def C177_full : Prop :=
  ∀ (blocking : Bool) (sock : Sock) (data : Bytes) (evs : List PutEv), Writable sock → NoFail evs →
    ∀ e, (sendAll blocking sock data evs).out ≠ some (.error e)

theorem sendAll_ready {sock : Sock} (h : Writable sock) (blocking : Bool) (data : Bytes) (evs : List PutEv) :
    sendAll blocking sock data evs = evs.foldl (putStep blocking) { rest := data } := by
  have : waitForIo (.one sock) .write false = .ok [sock] := by
    simp [waitForIo, registerAll, h.1, Sock.ready, h.2]
  unfold sendAll
  rw [this]

/-- C177: a connection as the pool makes it (not blocking) raises as soon as there is no room, and what it has sent by then
may be any part of the bytes but the whole -/
theorem C177_cut (sock : Sock) (hs : Writable sock) (data : Bytes) (k : Nat) (hk : k < data.length) (more : List PutEv) :
    ∃ evs, NoFail evs ∧ (sendAll false sock data (evs ++ more)).out = some (.error .other) ∧
      (sendAll false sock data (evs ++ more)).sent = data.take k := by
  have keep : ∀ (s : PutSt) (more : List PutEv), s.out.isSome = true → more.foldl (putStep false) s = s := by
    intro s more h
    induction more with
    | nil => rfl
    | cons e more ih =>
      rw [List.foldl_cons]
      have : putStep false s e = s := by unfold putStep; rw [if_pos h]
      rw [this]; exact ih
  cases k with
  | zero =>
    refine ⟨[.full], fun e h => (nomatch List.mem_singleton.1 h), ?_⟩
    rw [sendAll_ready hs, List.foldl_append]
    have : [PutEv.full].foldl (putStep false) { rest := data } = { rest := data, out := some (.error .other) } := rfl
    rw [this, keep _ more rfl]
    exact ⟨rfl, by simp⟩
  | succ k =>
    refine ⟨[.took k, .full], fun e h => by simp at h, ?_⟩
    rw [sendAll_ready hs, List.foldl_append]
    have hne : (data.drop (k + 1)).isEmpty = false := by
      cases hd : data.drop (k + 1) with
      | nil => have := congrArg List.length hd; rw [List.length_drop, List.length_nil] at this; omega
      | cons _ _ => rfl
    have : [PutEv.took k, .full].foldl (putStep false) { rest := data } =
        { sent := data.take (k + 1), rest := data.drop (k + 1), out := some (.error .other) } := by
      simp [putStep, hne]
    rw [this, keep _ more rfl]
    exact ⟨rfl, rfl⟩

/-- C177 is violated by the connections of the pool: one byte goes out, the second one raises -/
theorem C177_violated : ¬ C177_full := by
  intro h
  have hw : Writable { fd := 3, writable := true } := ⟨rfl, rfl⟩
  obtain ⟨evs, h1, h2, -⟩ := C177_cut _ hw [1, 2] 1 (by decide) []
  rw [List.append_nil] at h2
  exact h false _ [1, 2] evs hw h1 .other h2

/-- what has been sent so far -/
structure PutOk (data : Bytes) (s : PutSt) : Prop where
  parts : s.sent ++ s.rest = data
  done : s.out = some (.ok ()) → s.rest = []

theorem PutOk.step {data : Bytes} {s : PutSt} (h : PutOk data s) (blocking : Bool) (ev : PutEv) :
    PutOk data (putStep blocking s ev) := by
  unfold putStep
  split
  · exact h
  · cases ev with
    | took n =>
      refine ⟨?_, ?_⟩
      · dsimp only
        rw [List.append_assoc, List.take_append_drop]
        exact h.parts
      · dsimp only
        intro ho
        split at ho
        · next he => exact List.isEmpty_iff.1 he
        · cases ho
    | full =>
      dsimp only
      split
      · exact h
      · exact ⟨h.parts, nofun⟩
    | fail e => exact ⟨h.parts, nofun⟩

theorem PutOk.run (blocking : Bool) (sock : Sock) (data : Bytes) (evs : List PutEv) : PutOk data (sendAll blocking sock data evs) := by
  unfold sendAll
  split
  · exact ⟨rfl, nofun⟩
  · exact ⟨rfl, nofun⟩
  · induction evs using snoc_induct with
    | nil => exact ⟨rfl, nofun⟩
    | snoc evs e ih =>
      rw [List.foldl_append]
      exact ih.step blocking e

/-- C177, what holds of every `sendall`. What has been sent is a beginning of the bytes, each sent once and in order. If
the call returns, it is all of them. Missing: that it does not raise while the socket works; see `C177_cut` for the
connections of the pool, `C177_blocking` for those that block. -/
theorem C177_prefix_partial (blocking : Bool) (sock : Sock) (data : Bytes) (evs : List PutEv) :
    (∃ rest, data = (sendAll blocking sock data evs).sent ++ rest ∧ rest = (sendAll blocking sock data evs).rest) ∧
    ((sendAll blocking sock data evs).out = some (.ok ()) → (sendAll blocking sock data evs).sent = data) := by
  have h := PutOk.run blocking sock data evs
  refine ⟨⟨_, h.parts.symm, rfl⟩, fun ho => ?_⟩
  have := h.parts
  rw [h.done ho, List.append_nil] at this
  exact this

theorem put_blocking {evs : List PutEv} (hn : NoFail evs) (s : PutSt) (hs : s.out = none) (h0 : s.rest ≠ []) :
    (evs.foldl (putStep true) s).out = if s.rest.length ≤ roomFor evs then some (.ok ()) else none := by
  induction evs generalizing s with
  | nil =>
    have : 0 < s.rest.length := List.length_pos_iff.2 h0
    rw [if_neg (by unfold roomFor; omega)]
    exact hs
  | cons e evs ih =>
    have hn' : NoFail evs := fun x hx => hn x (List.mem_cons_of_mem _ hx)
    rw [List.foldl_cons]
    cases e with
    | fail x => exact absurd List.mem_cons_self (hn x)
    | full =>
      have : putStep true s .full = s := by unfold putStep; rw [hs]; rfl
      rw [this]
      exact ih hn' s hs h0
    | took n =>
      have e1 : putStep true s (.took n) = { sent := s.sent ++ s.rest.take (n + 1), rest := s.rest.drop (n + 1), out := if (s.rest.drop (n + 1)).isEmpty then some (.ok ()) else none } := by
        unfold putStep; rw [hs]; rfl
      rw [e1]
      by_cases hd : s.rest.drop (n + 1) = []
      · have hl := congrArg List.length hd
        rw [List.length_drop, List.length_nil] at hl
        rw [hd]
        have keep : ∀ (s : PutSt) (evs : List PutEv), s.out = some (.ok ()) → (evs.foldl (putStep true) s).out = some (.ok ()) := by
          intro s evs h
          induction evs generalizing s with
          | nil => exact h
          | cons e evs ih =>
            rw [List.foldl_cons]
            exact ih _ (by unfold putStep; rw [if_pos (by rw [h]; rfl)]; exact h)
        rw [keep _ _ rfl, if_pos (by unfold roomFor; omega)]
      · have hne : (s.rest.drop (n + 1)).isEmpty = false := by
          cases hx : s.rest.drop (n + 1) with
          | nil => exact absurd hx hd
          | cons _ _ => rfl
        rw [hne]
        rw [ih hn' _ rfl hd]
        dsimp only
        rw [List.length_drop]
        have : n + 1 < s.rest.length := by
          rcases Nat.lt_or_ge (n + 1) s.rest.length with h | h
          · exact h
          · exact absurd (List.drop_of_length_le h) hd
        by_cases ho : s.rest.length ≤ roomFor (.took n :: evs)
        · rw [if_pos ho, if_pos (by unfold roomFor at ho; omega)]
        · rw [if_neg ho, if_neg (by unfold roomFor at ho; omega)]

/-- C177 for a connection that blocks (`SocketConnection(pool_key, blocking=True)`): it never raises while the socket
works, and it returns as soon as the operating system has been willing to take all bytes. -/
theorem C177_blocking (sock : Sock) (hs : Writable sock) (data : Bytes) (h0 : data ≠ []) (evs : List PutEv) (hn : NoFail evs) :
    (sendAll true sock data evs).out = if data.length ≤ roomFor evs then some (.ok ()) else none := by
  rw [sendAll_ready hs]
  exact put_blocking hn _ rfl h0

/-- C177: a closed connection raises SocketValueError and sends nothing -/
theorem C177_closed (blocking : Bool) (sock : Sock) (hs : sock.closed = true) (data : Bytes) (evs : List PutEv) :
    (sendAll blocking sock data evs).out = some (.error .socketValueError) ∧ (sendAll blocking sock data evs).sent = [] := by
  have : waitForIo (.one sock) .write false = .raise .socketValueError := by simp [waitForIo, registerAll, hs]
  unfold sendAll
  rw [this]
  exact ⟨rfl, rfl⟩

/-- five bytes, of which the operating system takes three: the connection of the pool raises, the blocking one goes on -/
example :
    sendAll false { fd := 3, writable := true } [1, 2, 3, 4, 5] [.took 2, .full, .took 9] =
      { sent := [1, 2, 3], rest := [4, 5], out := some (.error .other) } ∧
    sendAll true { fd := 3, writable := true } [1, 2, 3, 4, 5] [.took 2, .full, .took 9] =
      { sent := [1, 2, 3, 4, 5], rest := [], out := some (.ok ()) } := by decide

end Bolt
