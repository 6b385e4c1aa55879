import Verif.Props.Undecodable
import Verif.Props.AioFrames
import Verif.Lemmas.AioRecvd
/-!
# C200: responses of which only a part arrives
-/
namespace Bolt
open Spec

/-! ## The specification -/

/-- `part` is what arrived of the response `q`: not all of it -/
def Spec.RespFrame.CutTo (q : RespFrame) (part : Bytes) : Prop := ∃ more, more ≠ [] ∧ part ++ more = q.bytes

/-! ## A part of a response -/

theorem respCut_lt {q : RespFrame} {part : Bytes} (h : q.CutTo part) : part.length < q.bytes.length := by
  obtain ⟨more, hm, e⟩ := h
  rw [← e, List.length_append]
  have := List.length_pos_iff.2 hm
  omega

/-- no beginning of it is as long as it says -/
theorem respCut_no_unit {q : RespFrame} {part : Bytes} (hq : q.Fits) (h : q.CutTo part) (u t : Bytes) (e : part = u ++ t) :
    ¬ RespUnit u := by
  intro hu
  have hlt := respCut_lt h
  obtain ⟨more, -, hm⟩ := h
  have : u ++ (t ++ more) = q.bytes ++ [] := by rw [← List.append_assoc, ← e, hm, List.append_nil]
  obtain ⟨rfl, -⟩ := unit_head hu (respFrame_unit hq) this
  rw [e, List.length_append] at hlt
  omega

theorem respCut_declared {q : RespFrame} {part : Bytes} (hq : q.Fits) (h : q.CutTo part) (h20 : 20 ≤ part.length) :
    part.length < Spec.declaredLength false part := by
  have hlt := respCut_lt h
  obtain ⟨more, -, hm⟩ := h
  have h1 := respUnit_prefix part more h20
  have h2 := respFrame_unit hq
  rw [hm, ← h2.2] at h1
  omega

/-! ## C200, the synchronous client -/

/-- C200 for the synchronous client. If only a part of the response arrives, then, whatever `recv` and the clock do, the
call has not ended, or it has ended by its timeout or by an error of the socket; the connection is not given back to the
pool. -/
theorem C200_sync (id : Int) (q : RespFrame) (part : Bytes) (evs : List RecvEv) (hq : q.Fits) (hc : q.CutTo part) :
    ((recvRun id part evs).out = none ∨
      (.timeout ∈ evs ∧ (recvRun id part evs).out = some (.error .timeoutError)) ∨
      ∃ e, .fail e ∈ evs ∧ (recvRun id part evs).out = some (.error e)) ∧
    (recvRun id part evs).connBack = false := by
  have hnone : Spec.responseOutcome id part = none := by
    unfold Spec.responseOutcome
    split
    · rfl
    · next h => rw [if_pos (respCut_declared hq hc (by omega))]
  rcases recv_run id part evs with ⟨h1, h2⟩ | ⟨r, -, h2, -⟩ | ⟨h1, h2, -, h3⟩ | ⟨e, h1, h2, -, h3⟩
  · exact ⟨.inl h1, h2.open_.2⟩
  · rw [hnone] at h2; cases h2
  · exact ⟨.inr (.inl ⟨h2, h1⟩), h3⟩
  · exact ⟨.inr (.inr ⟨e, h2, h1⟩), h3⟩

/-- so `invoke_sync` returns nothing -/
theorem C200_sync_call {C : Type} (a : CallArgs) (t : TimeoutArg) (env : Nat → Attempt C) (reg : Bool) (q : RespFrame)
    (part : Bytes) (evs : List RecvEv) (hq : q.Fits) (hc : q.CutTo part) (x : PyObj) :
    invokeSync a t env reg part evs ≠ .ended (.ok x) := by
  intro h
  obtain ⟨f, cn, hb, ct, rest, h1, h2, h3, -⟩ := (C50_own_success a t env reg part evs).1 x h
  exact respCut_no_unit hq hc _ _ h1 (frame_unit h2)

/-! ## C200, the asyncio client -/

/-- C200 for the asyncio client, for every schedule, with lost connections, retries and timeouts. If what has arrived on
every connection is some whole responses and a part of one more, then every call that has returned has returned the content
of one of the whole ones, of one with its id and status SUCCESS. -/
theorem C200_aio (v : PyVer) (evs : List AEv) (hd : DistinctIds evs) (qs : Nat → List RespFrame) (part : Nat → Bytes)
    (hqs : ∀ n, ∀ q ∈ qs n, q.Fits) (hcut : ∀ n, ∃ q : RespFrame, q.Fits ∧ q.CutTo (part n))
    (hr : ∀ n k, (arun v evs).conns[n]? = some k → k.recvd = ((qs n).map RespFrame.bytes).flatten ++ part n)
    (i : Nat) (c : ACall) (p : Pkg) (hc : (arun v evs).calls[i]? = some c) (hp : c.pc = .done (.resp p)) :
    ∃ n, ∃ q ∈ qs n, q.f.cmdcode = 2 ∧ q.f.seventh = 0 ∧ c.req.requestId = .int q.f.requestId ∧
      p.content = .bytes q.content := by
  obtain ⟨pre, post, n, k, c', us, f, cn, hb, ct, rest, rfl, h1, -, -, -, h2, h3, h4, h5, h6, h7, h8, h9⟩ :=
    C55_own_response v evs hd i c p hc hp
  obtain ⟨k', g1, ⟨x, g2⟩⟩ := arun_got (pre := k.recvd) v pre (.recv n :: post) h1 (List.prefix_refl _)
  have hk' := hr n k' g1
  obtain ⟨q0, hq0, hc0⟩ := hcut n
  have hC : Cut k'.recvd ((qs n).map RespFrame.bytes) (part n) := by
    refine ⟨?_, hk', fun u t e => respCut_no_unit hq0 hc0 u t e⟩
    intro u hu
    obtain ⟨q, hq, rfl⟩ := List.mem_map.1 hu
    exact respFrame_unit (hqs n q hq)
  have hC' : Cut ((us ++ [frame false f cn hb ct]).flatten ++ (rest ++ x)) ((qs n).map RespFrame.bytes) (part n) := by
    have : (us ++ [frame false f cn hb ct]).flatten ++ (rest ++ x) = k'.recvd := by
      rw [← g2, h3]
      simp [List.append_assoc]
    rw [this]
    exact hC
  have hpre := cut_prefix _ _ _ _ (by
    intro u hu
    rcases List.mem_append.1 hu with hu | hu
    · exact h2 u hu
    · rw [List.mem_singleton.1 hu]; exact frame_unit h4) hC'
  have hmem : frame false f cn hb ct ∈ (qs n).map RespFrame.bytes := hpre.subset (by simp)
  obtain ⟨q, hq, e⟩ := List.mem_map.1 hmem
  obtain ⟨rfl, rfl, rfl, rfl⟩ := frame_inj e (hqs n q hq).1 h5 (hqs n q hq).2 h4
  exact ⟨n, q, hq, h6, h7, h8, h9⟩

/-! ## Concrete cases -/

/-- a response -/
def exWhole (id : Int) (ct : Bytes) : RespFrame := ⟨⟨1, 0, 2, 1, id, 11, 0⟩, respClass, [], ct⟩

theorem exWhole_cut (k : Nat) (hk : k < (exWhole 1 [11]).bytes.length) :
    (exWhole 1 [11]).CutTo ((exWhole 1 [11]).bytes.take k) := by
  refine ⟨(exWhole 1 [11]).bytes.drop k, ?_, List.take_append_drop _ _⟩
  intro h
  have := congrArg List.length h
  rw [List.length_drop] at this
  simp only [List.length_nil] at this
  omega

/-- two calls over one connection; the second is answered, of the response of the first 30 bytes arrive -/
def exCutCalls : List AEv :=
  [.call (exAReq 1), .call (exAReq 2), .start 0 exAddr, .start 1 exAddr, .dialed 0 true, .lock 1, .drained 0 true,
   .drained 1 true, .drained 1 true, .drained 0 true, .recv 0,
   .data 0 ((exWhole 2 [22]).bytes ++ (exWhole 1 [11]).bytes.take 30), .recv 0, .recv 0, .recv 0, .wake 1, .wake 0]

set_option maxRecDepth 40000 in
example : DistinctIds exCutCalls ∧ (exWhole 2 [22]).Fits ∧ (exWhole 1 [11]).Fits ∧
    (exWhole 1 [11]).CutTo ((exWhole 1 [11]).bytes.take 30) ∧
    ((arun .from38 exCutCalls).conns.map AConn.recvd) =
      [([exWhole 2 [22]].map RespFrame.bytes).flatten ++ (exWhole 1 [11]).bytes.take 30] ∧
    ((arun .from38 exCutCalls).calls.map fun c => match c.pc with | .done r => some (syncResult r) | _ => none) =
      [none, some (.ok (.bytes [22]))] :=
  ⟨by decide, ⟨⟨by decide, by decide, by decide, by decide, by decide, by decide, by decide⟩, by decide⟩,
    ⟨⟨by decide, by decide, by decide, by decide, by decide, by decide, by decide⟩, by decide⟩,
    exWhole_cut 30 (by decide +kernel), by decide +kernel, by decide +kernel⟩

set_option maxRecDepth 40000 in
/-- a synchronous call with 30 bytes of its response, which ends by its timeout -/
example : (recvRun 1 ((exWhole 1 [11]).bytes.take 30) [.recv 4000, .recv 4000]).out = none ∧
    (recvRun 1 ((exWhole 1 [11]).bytes.take 30) [.recv 4000, .recv 4000, .timeout]).out = some (.error .timeoutError) ∧
    (recvRun 1 (exWhole 1 [11]).bytes [.recv 4000, .recv 4000, .timeout]).out = some (.ok (.bytes [11])) := by
  decide +kernel

end Bolt
