import Verif.Model.SockHostName
import Verif.Props.HostName
import Verif.Props.SockListener
/-!
# C205: the socket listener on a host whose name cannot be resolved
-/
namespace Bolt
open Spec

namespace Spec

/-- the same event on a host whose name can be resolved -/
def sNamed : SNEv → SEv
  | .ev e => e
  | .nameless => .handler []

/-- the thread has read all of a request but, possibly, the content, of which the rest is there -/
structure RequestThere (s : SSt) (h : ReqHdr) (d : PyDict PyStr PyStr) : Prop where
  phase : s.phase = .body h (pyb "com.alipay.sofa.rpc.core.request.SofaRequest") d
  code : h.cmdcode ≠ 0 ∧ h.cmdcode ≠ 2
  service : (serviceOf d).isSome
  method : (methodOf d).isSome
  there : h.contentLen.toNat ≤ s.acc.length + s.buf.length
  alive : s.reset = false

end Spec

/-- C205 as listed: the thread ends on a host whose name cannot be resolved only where it ends on another one as well. -/
def C205_full : Prop :=
  ∀ (svc : Services) (reg : Registry) (evs : List SNEv) (f : PyStr),
    ((snrun svc reg evs).handlerN svc).phase = .done → ((snrun svc reg evs).handler svc f).phase = .done

theorem serveN_eq {svc : Services} {s : SSt} {fresh : Option PyStr} {f : PyStr} {h : ReqHdr} {cn : Bytes} {d : PyDict PyStr PyStr}
    {body : Bytes} (he : extractN s.heap fresh d = extract s.heap f d) : s.serveN svc fresh h cn d body = s.serve svc f h cn d body := by
  unfold SSt.serveN SSt.serve
  rw [he]
  cases serviceOf d with
  | none => rfl
  | some sv =>
    cases methodOf d with
    | none => rfl
    | some mt =>
      cases extract s.heap f d with
      | error e => rfl
      | ok r =>
        obtain ⟨heap, ctx⟩ := r
        dsimp only
        cases findMethod svc s.reg heap ctx sv mt <;> rfl

/-- `_readexactly` hands on the state but for the bytes -/
theorem readexactly_congr {s : SSt} {n : Nat} {k k' : SSt → Bytes → SSt}
    (h : ∀ (s' : SSt) bs, s'.heap = s.heap → k s' bs = k' s' bs) : s.readexactly n k = s.readexactly n k' := by
  unfold SSt.readexactly
  split
  · split
    · rfl
    · dsimp only
      split
      · split
        · rfl
        · exact h _ _ rfl
      · rfl
  · exact h _ _ rfl

theorem handlerN_eq {svc : Services} {s : SSt} (h : ∀ h cn d, s.phase = .body h cn d → CarriesTraceId d) (f : PyStr) :
    s.handlerN svc = s.handler svc f := by
  unfold SSt.handlerN SSt.handler
  cases hp : s.phase with
  | body hd cn d =>
    dsimp only
    refine readexactly_congr fun s' bs _ => ?_
    exact serveN_eq ((C188_extract s'.heap d).2.1 (h hd cn d hp) f)
  | _ => rfl

/-- C205, what holds: if all the requests the thread serves while the name cannot be resolved carry a trace id, everything is as
on a host whose name can be resolved. Missing: requests without a trace id, which are lost (`C205_always`). -/
theorem C205_named_partial (svc : Services) (reg : Registry) (evs : List SNEv)
    (h : ∀ pre post, evs = pre ++ .nameless :: post → ∀ hd cn d, (snrun svc reg pre).phase = .body hd cn d → CarriesTraceId d) :
    snrun svc reg evs = srun svc reg (evs.map sNamed) := by
  induction evs using snoc_induct with
  | nil => rfl
  | snoc evs e ih =>
    have ih := ih fun pre post he => h pre (post ++ [e]) (by rw [he]; simp)
    have e1 : snrun svc reg (evs ++ [e]) = snstep svc (snrun svc reg evs) e := by simp [snrun]
    have e2 : srun svc reg ((evs ++ [e]).map sNamed) = sstep svc (srun svc reg (evs.map sNamed)) (sNamed e) := by simp [srun]
    rw [e1, e2, ← ih]
    cases e with
    | ev e => rfl
    | nameless => exact handlerN_eq (h evs [] rfl) []

/-- C205, which requests are lost: whenever the thread serves a request without a trace id while the name of the host cannot be
resolved, it ends: no method is called, and nothing is sent from then on. -/
theorem C205_always (svc : Services) (reg : Registry) (pre more : List SNEv) (h : ReqHdr) (d : PyDict PyStr PyStr)
    (hr : RequestThere (snrun svc reg pre) h d) (hc : ¬ CarriesTraceId d) :
    let s := snrun svc reg pre
    let s' := snrun svc reg (pre ++ .nameless :: more)
    s'.phase = .done ∧ s'.calls = s.calls ∧ s'.out = s.out := by
  dsimp only
  have e1 : snrun svc reg (pre ++ .nameless :: more) = more.foldl (snstep svc) ((snrun svc reg pre).handlerN svc) := by
    simp [snrun, snstep]
  rw [e1]
  generalize snrun svc reg pre = s at *
  have one : ∀ (s' : SSt) bs, s'.serveN svc none h (pyb "com.alipay.sofa.rpc.core.request.SofaRequest") d bs = s'.finish := by
    intro s' bs
    obtain ⟨sv, h1⟩ := Option.isSome_iff_exists.1 hr.service
    obtain ⟨mt, h2⟩ := Option.isSome_iff_exists.1 hr.method
    unfold SSt.serveN
    rw [if_neg (by exact hr.code.1), if_neg (by exact hr.code.2), if_neg (by intro h; exact h rfl), h1]
    dsimp only
    rw [h2]
    dsimp only
    rw [(C188_extract s'.heap d).2.2 hc]
  have base : (s.handlerN svc).phase = .done ∧ (s.handlerN svc).calls = s.calls ∧ (s.handlerN svc).out = s.out := by
    have ht := hr.there
    unfold SSt.handlerN
    rw [hr.phase]
    dsimp only
    unfold SSt.readexactly
    split
    · rw [if_neg (by rw [hr.alive]; decide)]
      dsimp only
      rw [if_pos (.inl (by omega)), if_neg (by rw [List.length_append, List.length_take]; omega), one]
      exact ⟨rfl, rfl, rfl⟩
    · dsimp only
      rw [one]
      exact ⟨rfl, rfl, rfl⟩
  generalize s.handlerN svc = s1 at *
  obtain ⟨b1, b2, b3⟩ := base
  rw [← b2, ← b3]
  clear b2 b3 e1 one
  induction more using snoc_induct with
  | nil => exact ⟨b1, rfl, rfl⟩
  | snoc more e ih =>
    rw [List.foldl_append]
    simp only [List.foldl_cons, List.foldl_nil]
    obtain ⟨i1, i2, i3⟩ := ih
    generalize more.foldl (snstep svc) s1 = s2 at *
    rw [← i2, ← i3]
    cases e with
    | nameless => simp [snstep, SSt.handlerN, SSt.handler, i1]
    | ev e =>
      cases e with
      | data bs => simp only [snstep, sstep]; split <;> exact ⟨i1, rfl, rfl⟩
      | eof => exact ⟨i1, rfl, rfl⟩
      | reset => exact ⟨i1, rfl, rfl⟩
      | handler f => simp [snstep, sstep, SSt.handler, i1]
      | finish o => simp [snstep, sstep, i1]
      | register r => exact ⟨i1, rfl, rfl⟩

/-- a complete request without a trace id, read up to its content -/
def exSockNameless : List SNEv :=
  [.ev (.data (exReq 3 [1]).bytes), .nameless, .nameless, .nameless]

set_option maxRecDepth 20000 in
/-- C205 as listed is violated. -/
theorem C205_violated : ¬ C205_full := by
  intro h
  have := h exServices exReg exSockNameless (py "t") (by decide +kernel)
  exact absurd this (by decide +kernel)

set_option maxRecDepth 20000 in
/-- the hypotheses of `C205_always` are met by `exSockNameless` -/
example : ∃ h d, RequestThere (snrun exServices exReg exSockNameless) h d ∧ ¬ CarriesTraceId d := by
  have key : (match (snrun exServices exReg exSockNameless).phase with
    | .body h cn d => decide (cn = pyb "com.alipay.sofa.rpc.core.request.SofaRequest" ∧ (h.cmdcode ≠ 0 ∧ h.cmdcode ≠ 2) ∧ (serviceOf d).isSome = true ∧
        (methodOf d).isSome = true ∧ h.contentLen.toNat ≤ (snrun exServices exReg exSockNameless).acc.length + (snrun exServices exReg exSockNameless).buf.length ∧
        (snrun exServices exReg exSockNameless).reset = false ∧ ¬ PyDict.contains d (py "rpc_trace_context.sofaTraceId") = true)
    | _ => false) = true := by decide +kernel
  generalize snrun exServices exReg exSockNameless = s at *
  cases hp : s.phase with
  | body h cn d =>
    rw [hp] at key
    obtain ⟨rfl, k2, k3, k4, k5, k6, k7⟩ := of_decide_eq_true key
    exact ⟨h, d, ⟨hp, k2, k3, k4, k5, k6⟩, k7⟩
  | _ => rw [hp] at key; cases key

set_option maxRecDepth 20000 in
/-- `C205_named_partial` has content: the name cannot be resolved while the parts of a request are read, and can be when it is
served -/
example : let evs : List SNEv := [.ev (.data (exReq 3 [1]).bytes), .nameless, .nameless, .nameless, .ev (.handler (py "t")),
      .ev (.finish (.ret (.bytes [7, 8])))]
    (snrun exServices exReg evs).out = [reply 3 0 [7, 8]] ∧
    ∀ pre post, evs = pre ++ .nameless :: post → ∀ hd cn d, (snrun exServices exReg pre).phase = .body hd cn d → CarriesTraceId d := by
  refine ⟨by decide +kernel, ?_⟩
  intro pre post he hd cn d hp
  have key : ∀ k, k ≤ 3 → (match (snrun exServices exReg (([.ev (.data (exReq 3 [1]).bytes), .nameless, .nameless, .nameless] : List SNEv).take k)).phase with
    | .body _ _ _ => false | _ => true) = true := by decide +kernel
  exfalso
  have hl : pre.length ≤ 3 := by
    rcases Nat.lt_or_ge 3 pre.length with h | h
    · have hm : (([.ev (.data (exReq 3 [1]).bytes), .nameless, .nameless, .nameless, .ev (.handler (py "t")),
        .ev (.finish (.ret (.bytes [7, 8])))] : List SNEv).drop 4).contains .nameless = true := by
        rw [he, List.drop_append_of_le_length h]
        simp
      exact absurd hm (by decide)
    · exact h
  have hpre : pre = ([.ev (.data (exReq 3 [1]).bytes), .nameless, .nameless, .nameless] : List SNEv).take pre.length := by
    have h4 := congrArg (List.take pre.length) he
    rw [List.take_left] at h4
    rw [← h4]
    have := congrArg (List.take pre.length) (List.take_append_drop 4 ([.ev (.data (exReq 3 [1]).bytes), .nameless, .nameless, .nameless, .ev (.handler (py "t")),
        .ev (.finish (.ret (.bytes [7, 8])))] : List SNEv))
    rw [← this, List.take_append_of_le_length (by simp; omega)]
    simp
  have := key pre.length hl
  rw [← hpre, hp] at this
  cases this

end Bolt
