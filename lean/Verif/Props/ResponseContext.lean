import Verif.Props.SockStream
/-!
# C135: the trace context in responses

`_dispatch` injects the span context into a dict before it builds the response (aio_listener.py:167-168), so that the
response could carry the context back. The dict is not used.
-/
namespace Bolt
open Spec

/-- C135 as listed: a response to a request that carries trace context items carries these items. -/
def C135_full : Prop :=
  ∀ (svc : Services) (reg : Registry) (evs : List LEv) (j : Nat) (t : Task) (r : Req) (m : Bytes) (p : Pkg)
    (k v : PyStr),
    (lrun svc reg evs).tasks[j]? = some t → t.kind = .dispatch r → (Origin.task j, m) ∈ (lrun svc reg evs).out →
    fromStream .boltResponse m = .ok p → p.respstatus = .success → (k, v) ∈ r.header →
    py "rpc_trace_context." <+: k → (k, PyObj.str v) ∈ p.header

/-- the asyncio listener: every message it sends, on whatever stream of bytes, has an empty header -/
theorem C135_empty_headers_partial (svc : Services) (reg : Registry) (evs : List LEv) (o : Origin) (m : Bytes)
    (hm : (o, m) ∈ (lrun svc reg evs).out) :
    ∃ p, fromStream .boltResponse m = .ok p ∧ p.header = [] := by
  obtain ⟨-, p, -, h1, -, -, h2⟩ := C71_replies_to_requests svc reg evs o m hm
  exact ⟨p, h1, h2⟩

/-- a message that decodes to a package with an empty header -/
def Spec.NoHeader (m : Bytes) : Prop := ∃ p, fromStream .boltResponse m = .ok p ∧ p.header = []

theorem failMsg_noHeader {id : Int} {st : RespStatus} {m : Bytes} (h : failMsg id st = .ok m) : NoHeader m := by
  have hid : IdOk id := by
    unfold failMsg at h
    rw [failResponse_eq] at h
    simp only [bind, Except.bind] at h
    obtain ⟨i, c, s, h1, -, -, hf, -⟩ := (toStream_ok_iff _ _).1 h
    cases h1
    exact hf.requestId
  rw [failMsg_ok id hid] at h
  cases h
  obtain ⟨p, h1, -, -, -, -, -, h2⟩ := reply_decodes id st [] hid (by decide)
  exact ⟨p, h1, h2⟩

theorem heartbeatMsg_noHeader {id : Int} {m : Bytes} (h : heartbeatMsg id = .ok m) : NoHeader m := by
  have hid : IdOk id := by
    unfold heartbeatMsg at h
    rw [heartbeatResponse_eq] at h
    simp only [bind, Except.bind] at h
    obtain ⟨i, c, s, h1, -, -, hf, -⟩ := (toStream_ok_iff _ _).1 h
    cases h1
    exact hf.requestId
  rw [heartbeatMsg_ok id hid] at h
  cases h
  obtain ⟨p, h1, -, -, -, -, -, h2⟩ := ack_decodes id hid
  exact ⟨p, h1, h2⟩

theorem resultMsg_noHeader {v : PyObj} {id : Int} {m : Bytes} (h : resultMsg v id = .ok m) : NoHeader m := by
  have hid : IdOk id := by
    unfold resultMsg at h
    rw [boltResponse_eq] at h
    simp only [bind, Except.bind] at h
    obtain ⟨i, c, s, h1, -, -, hf, -⟩ := (toStream_ok_iff _ _).1 h
    cases h1
    exact hf.requestId
  by_cases hv : ∃ c, v = .bytes c
  · obtain ⟨c, rfl⟩ := hv
    rw [resultMsg_bytes id hid] at h
    split at h
    · next hc =>
      cases h
      obtain ⟨p, h1, -, -, -, -, -, h2⟩ := reply_decodes id .success c hid hc
      exact ⟨p, h1, h2⟩
    · cases h
  · rw [resultMsg_other id v (fun c e => hv ⟨c, e⟩)] at h
    cases h

theorem send_noHeader {s : SSt} (hs : ∀ m ∈ s.out, NoHeader m) {x : Except PyExc Bytes}
    (hx : ∀ m, x = .ok m → NoHeader m) : ∀ m ∈ (s.send x).out, NoHeader m := by
  unfold SSt.send
  split
  · next bs =>
    split
    · exact hs
    · intro m hm
      rcases List.mem_append.1 (show m ∈ s.out ++ [bs] from hm) with hm | hm
      · exact hs m hm
      · cases List.mem_singleton.1 hm
        exact hx _ rfl
  · exact hs

theorem serve_noHeader (svc : Services) {s : SSt} (hs : ∀ m ∈ s.out, NoHeader m) (fresh : PyStr) (h : ReqHdr)
    (cn : Bytes) (d : PyDict PyStr PyStr) (b : Bytes) : ∀ m ∈ (s.serve svc fresh h cn d b).out, NoHeader m := by
  unfold SSt.serve
  split
  · exact send_noHeader hs fun m e => heartbeatMsg_noHeader e
  · split
    · exact hs
    · split
      · exact hs
      · split
        · exact send_noHeader hs fun m e => failMsg_noHeader e
        · split
          · exact send_noHeader hs fun m e => failMsg_noHeader e
          · split
            · exact hs
            · dsimp only
              split
              · exact hs
              · exact hs

/-- the socket listener: every message it sends has an empty header, too -/
theorem C135_empty_headers_sock_partial (svc : Services) (reg : Registry) (evs : List SEv) :
    ∀ m ∈ (srun svc reg evs).out, ∃ p, fromStream .boltResponse m = .ok p ∧ p.header = [] := by
  refine srun_induct svc reg (fun _ s => ∀ m ∈ s.out, NoHeader m) (by intro m hm; cases hm) ?_ evs
  intro pre e h
  generalize srun svc reg pre = s at *
  cases e with
  | data bs =>
    simp only [sstep]
    split <;> exact h
  | eof => exact h
  | reset => exact h
  | register r => exact h
  | finish o =>
    simp only [sstep]
    split
    · split
      · exact h
      · exact send_noHeader (s := { s with result := some _ }) h fun m e => resultMsg_noHeader e
    · exact h
  | handler fresh =>
    have key : ∀ (n : Nat) (k : SSt → Bytes → SSt),
        (∀ (t : SSt) (b : Bytes), (∀ m ∈ t.out, NoHeader m) → ∀ m ∈ (k t b).out, NoHeader m) →
        ∀ m ∈ (s.readexactly n k).out, NoHeader m := by
      intro n k hk
      unfold SSt.readexactly
      split
      · split
        · exact h
        · dsimp only
          split
          · split
            · exact h
            · exact hk _ _ h
          · exact h
      · exact hk _ _ h
    simp only [sstep]
    unfold SSt.handler
    split
    · exact key _ _ fun t b ht => by split <;> exact ht
    · exact key _ _ fun t b ht => ht
    · exact key _ _ fun t b ht => by split <;> exact ht
    · exact key _ _ fun t b ht => serve_noHeader svc ht _ _ _ _ _
    · exact h
    · exact h

/-! ### a request with a trace context -/

/-- a header with a trace id -/
def exTracedHeader : PyDict PyStr PyStr :=
  [(py "service", py "s"), (py "sofa_head_method_name", py "m"), (py "rpc_trace_context.sofaTraceId", py "abc")]

def exTracedBytes : Bytes :=
  exHdrBytes ++ [0, 0, 0, 29] ++ pyb "rpc_trace_context.sofaTraceId" ++ [0, 0, 0, 3] ++ pyb "abc"

/-- a request with it -/
def exTracedReq : ReqFrame := ⟨⟨1, 1, 1, 1, 7, 11, 100⟩, exTracedBytes, exTracedHeader, [1]⟩

set_option maxRecDepth 20000 in
/-- it is read, executed and answered -/
theorem exTraced_run : (lrun exServices exReg (exCallEvs exTracedReq.bytes (.ret (.bytes [2])) ++
      [.write 0])).out = [(.task 0, reply 7 0 [2])] ∧
    ((lrun exServices exReg (exCallEvs exTracedReq.bytes (.ret (.bytes [2])) ++ [.write 0])).tasks.map
      Task.kind) = [.dispatch exTracedReq.req] := by decide +kernel

/-- The answer does not carry the trace id. -/
theorem C135_violated : ¬ C135_full := by
  intro hf
  obtain ⟨ho, ht⟩ := exTraced_run
  obtain ⟨t, h1, h2⟩ := List.map_eq_singleton_iff.1 ht
  obtain ⟨p, h3, -, h4, -, -, -, h5⟩ := reply_decodes 7 .success [2] (by constructor <;> decide) (by decide)
  have := hf exServices exReg _ 0 t exTracedReq.req (reply 7 0 [2]) p (py "rpc_trace_context.sofaTraceId") (py "abc")
    (by rw [h1]; rfl) h2 (by rw [ho]; exact List.mem_singleton.2 rfl) h3 h4 (by decide) (by decide)
  rw [h5] at this
  cases this

set_option maxRecDepth 20000 in
/-- the same request at the socket listener -/
example : (srun exServices exReg [.data exTracedReq.bytes, .handler [], .handler [], .handler [], .handler [],
      .finish (.ret (.bytes [2]))]).out = [reply 7 0 [2]] := by decide +kernel

end Bolt
