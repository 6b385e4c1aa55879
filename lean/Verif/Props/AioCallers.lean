import Verif.Model.AioCallers
import Verif.Props.AioFail
/-!
# C127-C129: the callers of the asyncio client
-/
namespace Bolt
open Spec

/-- what a history of the callers means on the event loop -/
def Spec.loopOf : List CallersEv → List AEv
  | [] => []
  | .invoke k a :: evs =>
    (if k = .sync ∧ isNumber a.timeout = false then []
     else match aioRequest a k.request with
      | .error _ => []
      | .ok p => [.call p]) ++ loopOf evs
  | .loop e :: evs => e :: loopOf evs
  | _ :: evs => loopOf evs

theorem loopOf_append (a b : List CallersEv) : loopOf (a ++ b) = loopOf a ++ loopOf b := by
  induction a with
  | nil => rfl
  | cons e a ih => cases e <;> simp [loopOf, ih]

theorem callersRun_snoc (v : PyVer) (evs : List CallersEv) (e : CallersEv) :
    callersRun v (evs ++ [e]) = callersStep v (callersRun v evs) e := by
  simp [callersRun, List.foldl_append]

/-- what is always true of a caller, given the state of the client -/
structure CallerOk (cli : ASt) (c : Caller) : Prop where
  own : ∀ i, c.call = some i → ∃ d, cli.calls[i]? = some d ∧ aioRequest c.args c.kind.request = .ok d.req
  fin : ∀ r, c.fut = .finished r → ∃ i d, c.call = some i ∧ cli.calls[i]? = some d ∧ d.pc = .done r
  out : ∀ x, c.out = some (.ok (some x)) → c.kind = .sync ∧ ∃ p, c.fut = .finished (.resp p) ∧ p.content = x
  cbs : c.cbs = match c.hasCallback, c.fut with
    | true, .finished (.resp p) => [p.content]
    | _, _ => []
  built : c.call = none → c.fut = .pending ∧ c.out.isSome
  wait : c.kind ≠ .sync → c.out.isSome
  fail : ∀ e, c.out = some (.error e) → c.call = none ∨ (c.kind = .sync ∧ (e = .timeoutError ∨ c.fut.result = some (.error e))) ∨
    (c.kind = .async true ∧ divides c.args.timeout = false ∧ e = .typeError)

structure CallersInv (v : PyVer) (evs : List CallersEv) (s : CallersSt) : Prop where
  cli : s.cli = arun v (loopOf evs)
  ok : ∀ (j : Nat) (c : Caller), s.callers[j]? = some c → CallerOk s.cli c
  apart : ∀ (j k : Nat) (c d : Caller) (i : Nat), s.callers[j]? = some c → s.callers[k]? = some d → c.call = some i →
    d.call = some i → j = k

/-- the client goes on -/
theorem CallerOk.mono {a b : ASt} {c : Caller} (h : CallerOk a c)
    (hm : ∀ (i : Nat) (d : ACall), a.calls[i]? = some d → ∃ d', b.calls[i]? = some d' ∧ d'.req = d.req ∧
      ∀ r, d.pc = .done r → d'.pc = .done r) : CallerOk b c := by
  refine ⟨fun i hi => ?_, fun r hr => ?_, h.out, h.cbs, h.built, h.wait, h.fail⟩
  · obtain ⟨d, h1, h2⟩ := h.own i hi
    obtain ⟨d', h3, h4, -⟩ := hm i d h1
    exact ⟨d', h3, by rw [h4]; exact h2⟩
  · obtain ⟨i, d, h1, h2, h3⟩ := h.fin r hr
    obtain ⟨d', h4, -, h5⟩ := hm i d h2
    exact ⟨i, d', h1, h4, h5 r h3⟩

theorem arun_mono (v : PyVer) (evs : List AEv) (e : AEv) (i : Nat) (d : ACall)
    (h : (arun v evs).calls[i]? = some d) : ∃ d', (astep v (arun v evs) e).calls[i]? = some d' ∧ d'.req = d.req ∧
      ∀ r, d.pc = .done r → d'.pc = .done r := by
  obtain ⟨d', h1, h2, -, -, h3⟩ := call_persist v evs [e] h
  rw [arun_snoc] at h1
  exact ⟨d', h1, h2, h3⟩

theorem hasCallback_kind {c : Caller} (h : c.hasCallback = true) : c.kind = .async true := by
  unfold Caller.hasCallback at h
  exact (of_decide_eq_true h).1

theorem runCallback_call (c : Caller) (r : CallRes) : (c.runCallback r).call = c.call := by
  unfold Caller.runCallback
  split
  · split <;> rfl
  · rfl

theorem CallerOk.settle {cli : ASt} {c : Caller} (h : CallerOk cli c) {i : Nat} {d : ACall} {r : CallRes}
    (hi : c.call = some i) (hd : cli.calls[i]? = some d) (hr : d.pc = .done r) : CallerOk cli (c.settle r) := by
  unfold Caller.settle
  cases hf : c.fut with
  | finished q => exact h
  | cancelled => exact h
  | pending =>
    have hc : c.cbs = [] := by
      have := h.cbs
      rw [hf] at this
      rw [this]
      split <;> simp_all
    have hout : ∀ x, c.out ≠ some (.ok (some x)) := by
      intro x hx
      obtain ⟨-, p, h1, -⟩ := h.out x hx
      rw [hf] at h1
      cases h1
    have hfail : ∀ e, c.out = some (.error e) → (c.kind = .sync ∧ e = .timeoutError) ∨
        (c.kind = .async true ∧ divides c.args.timeout = false ∧ e = .typeError) := by
      intro e he
      rcases h.fail e he with h1 | ⟨h1, h2 | h2⟩ | h1
      · rw [h1] at hi; cases hi
      · exact .inl ⟨h1, h2⟩
      · rw [hf] at h2; cases h2
      · exact .inr h1
    dsimp only
    split
    · next hq =>
      subst hq
      have e : ({ c with fut := CFutSt.cancelled } : Caller).runCallback (.raised .cancelledError) =
          { c with fut := .cancelled } := by
        unfold Caller.runCallback
        simp [callbackArg]
      rw [e]
      refine ⟨h.own, fun r hr => (by cases hr), fun x hx => absurd hx (hout x), ?_, fun hn => ?_, h.wait,
        fun e he => .inr ((hfail e he).imp (fun h => ⟨h.1, .inl h.2⟩) id)⟩
      · show c.cbs = _
        rw [hc]
        split <;> simp_all
      · rw [show c.call = none from hn] at hi; cases hi
    · next hq =>
      have e : ({ c with fut := CFutSt.finished r } : Caller).runCallback r =
          { c with fut := .finished r, cbs := match c.hasCallback, r with
            | true, .resp p => [p.content]
            | _, _ => [] } := by
        unfold Caller.runCallback
        rw [show ({ c with fut := CFutSt.finished r } : Caller).hasCallback = c.hasCallback from rfl]
        cases hk : c.hasCallback <;> cases r <;> simp [callbackArg, hc]
      rw [e]
      refine ⟨h.own, fun q hq' => ?_, fun x hx => absurd hx (hout x), ?_, fun hn => ?_, h.wait,
        fun e he => .inr ((hfail e he).imp (fun h => ⟨h.1, .inl h.2⟩) id)⟩
      · cases hq'
        exact ⟨i, d, hi, hd, hr⟩
      · show _ = match c.hasCallback, CFutSt.finished r with
          | true, .finished (.resp p) => [p.content]
          | _, _ => []
        cases c.hasCallback <;> cases r <;> rfl
      · rw [show c.call = none from hn] at hi; cases hi

theorem CallerOk.cancel {cli : ASt} {c : Caller} (h : CallerOk cli c) : CallerOk cli c.cancel := by
  unfold Caller.cancel
  split
  · next cb hk hf =>
    split
    · next hs =>
      have e : ({ c with fut := CFutSt.cancelled } : Caller).runCallback (.raised .cancelledError) =
          { c with fut := .cancelled } := by
        unfold Caller.runCallback
        simp [callbackArg]
      rw [e]
      refine ⟨h.own, fun r hr => (by cases hr), fun x hx => ?_, ?_, fun hn => ?_, h.wait, fun e he => ?_⟩
      · have := (h.out x hx).1
        rw [hk] at this
        cases this
      · have := h.cbs
        rw [hf] at this
        show c.cbs = match c.hasCallback, CFutSt.cancelled with
          | true, .finished (.resp p) => [p.content]
          | _, _ => []
        rw [this]
        cases c.hasCallback <;> rfl
      · rw [show c.call = none from hn] at hs; cases hs.1
      · rw [show c.out = some (.error e) from he] at hs; cases hs.2
    · exact h
  · exact h

theorem CallerOk.give {cli : ASt} {c : Caller} (h : CallerOk cli c) : CallerOk cli c.give := by
  unfold Caller.give
  split
  · next hs =>
    split
    · next x hx =>
      refine ⟨h.own, h.fin, fun y hy => ?_, h.cbs, fun hn => ⟨(h.built hn).1, rfl⟩, fun _ => rfl, fun e he => (by cases he)⟩
      refine ⟨hs.1, ?_⟩
      cases hy
      cases hf : c.fut with
      | pending => rw [hf] at hx; cases hx
      | cancelled => rw [hf] at hx; cases hx
      | finished r =>
        rw [hf] at hx
        cases r with
        | resp p =>
          refine ⟨p, rfl, ?_⟩
          simpa [CFutSt.result, syncResult] using hx
        | none => simp [CFutSt.result, syncResult] at hx
        | raised e => simp [CFutSt.result, syncResult] at hx
    · next e he =>
      refine ⟨h.own, h.fin, fun y hy => (by cases hy), h.cbs, fun hn => ⟨(h.built hn).1, rfl⟩, fun _ => rfl, fun e' he' => ?_⟩
      cases he'
      exact .inr (.inl ⟨hs.1, .inr he⟩)
    · exact h
  · exact h

theorem CallerOk.giveUp {cli : ASt} {c : Caller} (h : CallerOk cli c) : CallerOk cli c.giveUp := by
  unfold Caller.giveUp
  split
  · next hs =>
    refine ⟨h.own, h.fin, fun y hy => (by cases hy), h.cbs, fun hn => ⟨(h.built hn).1, rfl⟩, fun _ => rfl, fun e' he' => ?_⟩
    cases he'
    exact .inr (.inl ⟨hs.1, .inl rfl⟩)
  · exact h

/-- updating a caller in place -/
theorem CallersInv.upd {v : PyVer} {evs evs' : List CallersEv} {s : CallersSt} (h : CallersInv v evs s)
    (hl : loopOf evs' = loopOf evs) (j : Nat) (f : Caller → Caller) (hcall : ∀ c, (f c).call = c.call)
    (hok : ∀ c, CallerOk s.cli c → CallerOk s.cli (f c)) :
    CallersInv v evs' { s with callers := s.callers.modify j f } := by
  refine ⟨by rw [hl]; exact h.cli, fun k c hc => ?_, fun k m c d i hc hd hi hi' => ?_⟩
  · rcases modify_get _ _ _ _ _ hc with ⟨-, x, hx, rfl⟩ | ⟨-, hx⟩
    · exact hok x (h.ok k x hx)
    · exact h.ok k c hx
  · have look : ∀ (k : Nat) (c : Caller), (s.callers.modify j f)[k]? = some c → c.call = some i →
        ∃ x, s.callers[k]? = some x ∧ x.call = some i := by
      intro k c hc hi
      rcases modify_get _ _ _ _ _ hc with ⟨-, x, hx, rfl⟩ | ⟨-, hx⟩
      · exact ⟨x, hx, by rw [← hcall]; exact hi⟩
      · exact ⟨c, hx, hi⟩
    obtain ⟨x, hx, ex⟩ := look k c hc hi
    obtain ⟨y, hy, ey⟩ := look m d hd hi'
    exact h.apart k m x y i hx hy ex ey

/-- a caller comes -/
theorem CallersInv.add {v : PyVer} {evs : List CallersEv} {s : CallersSt} (h : CallersInv v evs s) (e : CallersEv)
    (cli' : ASt) (c : Caller) (hcli : cli' = arun v (loopOf (evs ++ [e])))
    (hm : ∀ (i : Nat) (d : ACall), s.cli.calls[i]? = some d → ∃ d', cli'.calls[i]? = some d' ∧ d'.req = d.req ∧
      ∀ r, d.pc = .done r → d'.pc = .done r)
    (hc : CallerOk cli' c) (hnew : ∀ i, c.call = some i → s.cli.calls.length ≤ i) :
    CallersInv v (evs ++ [e]) { cli := cli', callers := s.callers ++ [c] } := by
  have old : ∀ (j : Nat) (x : Caller) (i : Nat), s.callers[j]? = some x → x.call = some i → i < s.cli.calls.length := by
    intro j x i hx hi
    obtain ⟨d, hd, -⟩ := (h.ok j x hx).own i hi
    exact (List.getElem?_eq_some_iff.1 hd).1
  have look : ∀ (k : Nat) (x : Caller), (s.callers ++ [c])[k]? = some x →
      s.callers[k]? = some x ∨ k = s.callers.length ∧ x = c := by
    intro k x hx
    rw [List.getElem?_append] at hx
    split at hx
    · exact .inl hx
    · next hlt =>
      right
      have : k - s.callers.length = 0 := by
        have := (List.getElem?_eq_some_iff.1 hx).1
        simpa using this
      rw [this] at hx
      simp at hx
      exact ⟨by omega, hx.symm⟩
  refine ⟨hcli, fun k x hx => ?_, fun k m x y i hx hy hi hi' => ?_⟩
  · rcases look k x hx with h1 | ⟨-, rfl⟩
    · exact (h.ok k x h1).mono hm
    · exact hc
  · rcases look k x hx with h1 | ⟨rfl, rfl⟩ <;> rcases look m y hy with h2 | ⟨rfl, rfl⟩
    · exact h.apart k m x y i h1 h2 hi hi'
    · have := old k x i h1 hi
      have := hnew i hi'
      omega
    · have := old m y i h2 hi'
      have := hnew i hi
      omega
    · rfl

theorem CallersInv.run (v : PyVer) (evs : List CallersEv) : CallersInv v evs (callersRun v evs) := by
  induction evs using snoc_induct with
  | nil =>
    refine ⟨rfl, fun j c h => ?_, fun j k c d i h => ?_⟩
    · simp [callersRun] at h
    · simp [callersRun] at h
  | snoc evs e ih =>
    rw [callersRun_snoc]
    cases e with
    | invoke k a =>
      show CallersInv v _ ((callersRun v evs).invoke v k a)
      unfold CallersSt.invoke
      have hm : ∀ (i : Nat) (d : ACall), (callersRun v evs).cli.calls[i]? = some d → ∃ d',
          (callersRun v evs).cli.calls[i]? = some d' ∧ d'.req = d.req ∧ ∀ r, d.pc = .done r → d'.pc = .done r :=
        fun i d hd => ⟨d, hd, rfl, fun _ h => h⟩
      have bad : ∀ e, CallerOk (callersRun v evs).cli { kind := k, args := a, call := none, out := some (.error e) } := by
        intro e
        refine ⟨fun i h => (by cases h), fun r h => (by cases h), fun x h => (by cases h), ?_, fun _ => ⟨rfl, rfl⟩,
          fun _ => rfl, fun _ _ => .inl rfl⟩
        dsimp only
        split <;> simp_all
      split
      · next hk =>
        refine ih.add _ _ _ ?_ hm (bad _) (fun i h => by cases h)
        rw [loopOf_append]
        simp only [loopOf, hk, and_self, if_true, List.append_nil]
        exact ih.cli
      · next hk =>
        split
        · next e he =>
          refine ih.add _ _ _ ?_ hm (bad _) (fun i h => by cases h)
          rw [loopOf_append]
          simp only [loopOf, if_neg hk, he, List.append_nil]
          exact ih.cli
        · next p hp =>
          refine ih.add _ _ _ ?_ ?_ ?_ (fun i h => by cases h; exact Nat.le_refl _)
          · rw [loopOf_append]
            simp only [loopOf, if_neg hk, hp, List.append_nil]
            rw [arun_snoc, ih.cli]
          · rw [ih.cli]; exact arun_mono v _ _
          · refine ⟨fun i h => ?_, fun r h => (by cases h), fun x h => ?_, ?_, fun h => (by cases h), fun h => ?_, fun e h => ?_⟩
            · cases h
              exact ⟨({ req := p } : ACall), by simp [astep], hp⟩
            · dsimp only at h
              split at h
              · cases h
              · split at h <;> cases h
            · dsimp only
              split <;> simp_all
            · dsimp only at h ⊢
              rw [if_neg h]
              split <;> rfl
            · dsimp only at h
              split at h
              · cases h
              · split at h
                · next hd => cases h; exact .inr (.inr ⟨hd.1, hd.2, rfl⟩)
                · cases h
    | loop e =>
      show CallersInv v _ { callersRun v evs with cli := astep v (callersRun v evs).cli e }
      refine ⟨?_, fun j c hc => ?_, ih.apart⟩
      · rw [loopOf_append]
        simp only [loopOf]
        rw [arun_snoc, ih.cli]
      · refine (ih.ok j c hc).mono ?_
        rw [ih.cli]
        exact arun_mono v _ _
    | settle j =>
      have hl : loopOf (evs ++ [.settle j]) = loopOf evs := by rw [loopOf_append]; simp [loopOf]
      have same : CallersInv v (evs ++ [.settle j]) (callersRun v evs) := ⟨by rw [hl]; exact ih.cli, ih.ok, ih.apart⟩
      show CallersInv v _ (callersStep v (callersRun v evs) (.settle j))
      unfold callersStep
      dsimp only
      split
      · next c hc =>
        split
        · next d hd =>
          split
          · next r hr =>
            obtain ⟨i, hi, hd⟩ := Option.bind_eq_some_iff.1 hd
            have hcall : (c.settle r).call = c.call := by
              unfold Caller.settle
              split
              · split <;> rw [runCallback_call]
              · rfl
            refine ⟨by rw [hl]; exact ih.cli, fun k x hx => ?_, fun k m x y n hx hy h1 h2 => ?_⟩
            · rw [List.getElem?_set] at hx
              split at hx
              · split at hx
                · cases hx
                  exact (ih.ok j c hc).settle hi hd hr
                · cases hx
              · exact ih.ok k x hx
            · have look : ∀ (k : Nat) (x : Caller), ((callersRun v evs).callers.set j (c.settle r))[k]? = some x →
                  x.call = some n → ∃ z, (callersRun v evs).callers[k]? = some z ∧ z.call = some n := by
                intro k x hx hn
                rw [List.getElem?_set] at hx
                split at hx
                · next e =>
                  split at hx
                  · cases hx
                    exact ⟨c, by rw [← e]; exact hc, by rw [← hcall]; exact hn⟩
                  · cases hx
                · exact ⟨x, hx, hn⟩
              obtain ⟨z, hz, ez⟩ := look k x hx h1
              obtain ⟨u, hu, eu⟩ := look m y hy h2
              exact ih.apart k m z u n hz hu ez eu
          · exact same
        · exact same
      · exact same
    | cancel j =>
      refine ih.upd (by rw [loopOf_append]; simp [loopOf]) j Caller.cancel (fun c => ?_) (fun c h => h.cancel)
      unfold Caller.cancel
      split
      · split
        · rw [runCallback_call]
        · rfl
      · rfl
    | give j =>
      refine ih.upd (by rw [loopOf_append]; simp [loopOf]) j Caller.give (fun c => ?_) (fun c h => h.give)
      unfold Caller.give
      split
      · split <;> rfl
      · rfl
    | timeout j =>
      refine ih.upd (by rw [loopOf_append]; simp [loopOf]) j Caller.giveUp (fun c => ?_) (fun c h => h.giveUp)
      unfold Caller.giveUp
      split <;> rfl

/-! ## C127 -/

/-- `x` is the content of a response to the request of this caller: a frame of the stream of some connection, cut where
its units end, a SUCCESS response with the id that was drawn for this call. -/
def Spec.OwnContent (v : PyVer) (evs : List CallersEv) (c : Caller) (x : PyObj) : Prop :=
  ∃ (pre post : List AEv) (n : Nat) (k : AConn) (us : List Bytes) (f : Fields) (cn hb ct rest : Bytes),
    loopOf evs = pre ++ .recv n :: post ∧ (arun v pre).conns[n]? = some k ∧ (∀ u ∈ us, RespUnit u) ∧
    k.recvd = us.flatten ++ frame false f cn hb ct ++ rest ∧ BodyFit cn hb ct ∧ Fields.Fit false f ∧ f.cmdcode = 2 ∧
    f.seventh = 0 ∧ f.requestId = c.args.id ∧ x = .bytes ct

theorem aioRequest_id {a : CallArgs} {k : AKind} {p : Pkg} (h : aioRequest a k = .ok p) : p.requestId = .int a.id := by
  unfold aioRequest at h
  cases hb : a.ctx with
  | none => rw [hb] at h; cases h
  | some b =>
    rw [hb] at h
    simp only [bind, Except.bind] at h
    split at h
    · cases h
    · exact ((mkPkg_ok_iff _ _ _ _ _).1 h).2.2.2.2.2.2.2.2.1

theorem own_content {v : PyVer} {evs : List CallersEv} (hd : DistinctIds (loopOf evs)) {c : Caller}
    (hok : CallerOk (callersRun v evs).cli c) {p : Pkg} (hf : c.fut = .finished (.resp p)) :
    OwnContent v evs c p.content := by
  obtain ⟨i, d, h1, h2, h3⟩ := hok.fin _ hf
  obtain ⟨d', h4, h5⟩ := hok.own i h1
  rw [h2] at h4
  cases h4
  rw [(CallersInv.run v evs).cli] at h2
  obtain ⟨pre, post, n, k, c', us, f, cn, hb, ct, rest, e1, e2, -, -, -, e3, e4, e5, e6, e7, e8, e9, e10⟩ :=
    C55_own_response v _ hd i d p h2 h3
  refine ⟨pre, post, n, k, us, f, cn, hb, ct, rest, e1, e2, e3, e4, e5, e6, e7, e8, ?_, e10⟩
  rw [aioRequest_id h5] at e9
  exact (PyObj.int.inj e9).symm

/-- what has been returned stays returned -/
theorem out_step (v : PyVer) (s : CallersSt) (e : CallersEv) (j : Nat) (c : Caller) (o : Except PyExc (Option PyObj))
    (hc : s.callers[j]? = some c) (ho : c.out = some o) :
    ∃ c', (callersStep v s e).callers[j]? = some c' ∧ c'.out = some o ∧ c'.args = c.args ∧ c'.kind = c.kind := by
  have run : ∀ (c : Caller) (r : CallRes), (c.runCallback r).out = c.out ∧ (c.runCallback r).args = c.args ∧
      (c.runCallback r).kind = c.kind := by
    intro c r
    unfold Caller.runCallback
    split
    · split <;> exact ⟨rfl, rfl, rfl⟩
    · exact ⟨rfl, rfl, rfl⟩
  have app : ∀ x, (s.callers ++ [x])[j]? = some c := by
    intro x
    rw [List.getElem?_append_left (List.getElem?_eq_some_iff.1 hc).1]
    exact hc
  have upd : ∀ (m : Nat) (f : Caller → Caller), (f c).out = some o → (f c).args = c.args → (f c).kind = c.kind →
      ∃ c', (s.callers.modify m f)[j]? = some c' ∧ c'.out = some o ∧ c'.args = c.args ∧ c'.kind = c.kind := by
    intro m f h1 h2 h3
    by_cases e : m = j
    · subst e
      exact ⟨f c, modify_self hc, h1, h2, h3⟩
    · exact ⟨c, by rw [modify_other e]; exact hc, ho, rfl, rfl⟩
  cases e with
  | invoke k a =>
    show ∃ c', (s.invoke v k a).callers[j]? = some c' ∧ _
    unfold CallersSt.invoke
    split
    · exact ⟨c, app _, ho, rfl, rfl⟩
    · split <;> exact ⟨c, app _, ho, rfl, rfl⟩
  | loop e => exact ⟨c, hc, ho, rfl, rfl⟩
  | settle m =>
    unfold callersStep
    dsimp only
    split
    · next d hd =>
      split
      · split
        · next r _ =>
          by_cases e : m = j
          · subst e
            rw [hc] at hd
            cases hd
            refine ⟨c.settle r, by simp [(List.getElem?_eq_some_iff.1 hc).1], ?_⟩
            unfold Caller.settle
            split
            · split
              · obtain ⟨r1, r2, r3⟩ := run { c with fut := .cancelled } r
                exact ⟨by rw [r1]; exact ho, r2, r3⟩
              · obtain ⟨r1, r2, r3⟩ := run { c with fut := .finished r } r
                exact ⟨by rw [r1]; exact ho, r2, r3⟩
            · exact ⟨ho, rfl, rfl⟩
          · refine ⟨c, ?_, ho, rfl, rfl⟩
            show (s.callers.set m _)[j]? = _
            rw [List.getElem?_set_ne e]
            exact hc
        · exact ⟨c, hc, ho, rfl, rfl⟩
      · exact ⟨c, hc, ho, rfl, rfl⟩
    · exact ⟨c, hc, ho, rfl, rfl⟩
  | cancel m =>
    have : c.cancel.out = c.out ∧ c.cancel.args = c.args ∧ c.cancel.kind = c.kind := by
      unfold Caller.cancel
      split
      · split
        · exact run { c with fut := .cancelled } _
        · exact ⟨rfl, rfl, rfl⟩
      · exact ⟨rfl, rfl, rfl⟩
    exact upd m _ (this.1.trans ho) this.2.1 this.2.2
  | give m =>
    have : c.give = c := by
      unfold Caller.give
      rw [if_neg (by rw [ho]; simp)]
    exact upd m _ (by rw [this]; exact ho) (by rw [this]) (by rw [this])
  | timeout m =>
    have : c.giveUp = c := by
      unfold Caller.giveUp
      rw [if_neg (by rw [ho]; simp)]
    exact upd m _ (by rw [this]; exact ho) (by rw [this]) (by rw [this])

theorem out_persist (v : PyVer) (evs more : List CallersEv) (j : Nat) (c : Caller) (o : Except PyExc (Option PyObj))
    (hc : (callersRun v evs).callers[j]? = some c) (ho : c.out = some o) :
    ∃ c', (callersRun v (evs ++ more)).callers[j]? = some c' ∧ c'.out = some o ∧ c'.args = c.args ∧ c'.kind = c.kind := by
  induction more using snoc_induct with
  | nil => rw [List.append_nil]; exact ⟨c, hc, ho, rfl, rfl⟩
  | snoc more e ih =>
    obtain ⟨d, h1, h2, h3, h4⟩ := ih
    obtain ⟨d', h5, h6, h7, h8⟩ := out_step v _ e j d o h1 h2
    rw [← List.append_assoc, callersRun_snoc]
    exact ⟨d', h5, h6, h7.trans h3, h8.trans h4⟩

/-- C127. Any number of threads use one client. What `invoke_sync` returns, and what a callback of `invoke_async` is
called with, is the content of a SUCCESS response with the id of that very call. No two calls share a coroutine. A
thread in `invoke_sync` can always go on, by taking the outcome or by its timeout, and what it has returned or raised
is final. -/
theorem C127_own_result (v : PyVer) (evs : List CallersEv) (hd : DistinctIds (loopOf evs)) (j : Nat) (c : Caller)
    (hc : (callersRun v evs).callers[j]? = some c) :
    (∀ x, c.out = some (.ok (some x)) → c.kind = .sync ∧ OwnContent v evs c x) ∧
    (∀ x ∈ c.cbs, c.kind = .async true ∧ OwnContent v evs c x) ∧
    (∀ (k : Nat) (d : Caller) (i : Nat), (callersRun v evs).callers[k]? = some d → c.call = some i → d.call = some i →
      j = k) ∧
    (c.out = none → ∃ e c', (e = .timeout j ∧ c'.out = some (.error .timeoutError) ∨ e = .give j ∧ c.fut ≠ .pending) ∧
      (callersRun v (evs ++ [e])).callers[j]? = some c' ∧ c'.out.isSome) ∧
    (∀ o more, c.out = some o → ∃ c', (callersRun v (evs ++ more)).callers[j]? = some c' ∧ c'.out = some o ∧
      c'.args = c.args ∧ c'.kind = c.kind) := by
  have hi := CallersInv.run v evs
  have hok := hi.ok j c hc
  refine ⟨fun x hx => ?_, fun x hx => ?_, fun k d i hk h1 h2 => hi.apart j k c d i hc hk h1 h2, fun hn => ?_,
    fun o more ho => out_persist v evs more j c o hc ho⟩
  · obtain ⟨h1, p, h2, rfl⟩ := hok.out x hx
    exact ⟨h1, own_content hd hok h2⟩
  · rw [hok.cbs] at hx
    split at hx
    · next p hk hf =>
      have := List.mem_singleton.1 hx
      subst this
      exact ⟨hasCallback_kind hk, own_content hd hok hf⟩
    · cases hx
  · have hk : c.kind = .sync := Classical.byContradiction fun h => by
      have := hok.wait h
      rw [hn] at this
      cases this
    have hcall : c.call.isSome := by
      cases h : c.call with
      | some i => rfl
      | none =>
        have := (hok.built h).2
        rw [hn] at this
        cases this
    cases hf : c.fut with
    | pending =>
      refine ⟨.timeout j, c.giveUp, .inl ⟨rfl, ?_⟩, ?_, ?_⟩
      · unfold Caller.giveUp
        rw [if_pos ⟨hk, by rw [hn]; rfl, hf, hcall⟩]
      · rw [callersRun_snoc]
        exact modify_self hc
      · unfold Caller.giveUp
        rw [if_pos ⟨hk, by rw [hn]; rfl, hf, hcall⟩]
        rfl
    | cancelled =>
      refine ⟨.give j, c.give, .inr ⟨rfl, by simp⟩, ?_, ?_⟩
      · rw [callersRun_snoc]
        exact modify_self hc
      · unfold Caller.give
        rw [if_pos ⟨hk, by rw [hn]; rfl⟩, hf]
        rfl
    | finished r =>
      refine ⟨.give j, c.give, .inr ⟨rfl, by simp⟩, ?_, ?_⟩
      · rw [callersRun_snoc]
        exact modify_self hc
      · unfold Caller.give
        rw [if_pos ⟨hk, by rw [hn]; rfl⟩, hf]
        cases r <;> rfl

/-! ### an example -/

/-- three calls: the second is answered first, the first gives up and is answered later, the third has a callback -/
def exCallers : List CallersEv :=
  [.invoke .sync { exCall with id := 1 }, .invoke .sync { exCall with id := 2 }, .invoke (.async true) { exCall with id := 3 },
   .loop (.start 0 exAddr), .loop (.dialed 0 true), .loop (.drained 0 true), .loop (.drained 0 true), .loop (.start 1 exAddr),
   .loop (.drained 1 true), .loop (.drained 1 true), .loop (.start 2 exAddr), .loop (.drained 2 true),
   .loop (.drained 2 true), .loop (.recv 0), .loop (.data 0 (reply 2 0 [22])), .loop (.recv 0), .loop (.recv 0),
   .loop (.wake 1), .settle 1, .timeout 0, .loop (.data 0 (reply 1 0 [11] ++ reply 3 0 [33])), .loop (.recv 0),
   .loop (.recv 0), .loop (.recv 0), .loop (.recv 0), .loop (.wake 0), .loop (.wake 2), .settle 0, .settle 2, .give 0,
   .give 1]

set_option maxRecDepth 40000 in
example : DistinctIds (loopOf exCallers) ∧
    (callersRun .from38 exCallers).callers.map (fun c => (c.out, c.cbs)) =
      [(some (.error .timeoutError), []), (some (.ok (some (.bytes [22]))), []), (some (.ok none), [.bytes [33]])] := by
  decide +kernel

/-! ## C128 -/

/-- C128 as listed: when all calls were made by `invoke_sync` and all of them have returned or raised, no event is left
in `request_mapping`. -/
def C128_full : Prop :=
  ∀ (v : PyVer) (evs : List CallersEv), DistinctIds (loopOf evs) → (∀ req, CallersEv.loop (.call req) ∉ evs) →
    (∀ c ∈ (callersRun v evs).callers, c.kind = .sync ∧ c.out ≠ none) → (callersRun v evs).cli.reqs = []

/-- the request is sent, the server says nothing, the caller gives up -/
def exGiveUp : List CallersEv :=
  [.invoke .sync exCall, .loop (.start 0 exAddr), .loop (.dialed 0 true), .loop (.drained 0 true), .loop (.drained 0 true),
   .loop (.recv 0), .timeout 0]

set_option maxRecDepth 40000 in
/-- C128 fails: the caller that gives up leaves the coroutine waiting. -/
theorem C128_violated : ¬ C128_full := by
  intro h
  have h1 : ((callersRun .from38 exGiveUp).callers.all fun c => c.kind = .sync ∧ c.out ≠ none) = true := by
    decide +kernel
  have := h .from38 exGiveUp (by decide +kernel) (by simp [exGiveUp]) (by
    intro c hc
    have := List.all_eq_true.1 h1 c hc
    simpa using this)
  revert this
  decide +kernel

/-- The event stays for as long as no response with its id comes, whatever else happens. -/
theorem C128_stays (v : PyVer) (pre post : List CallersEv) (hd : DistinctIds (loopOf (pre ++ post))) (j i ev : Nat)
    (c : Caller) (d : ACall) (hc : (callersRun v pre).callers[j]? = some c) (ho : c.out = some (.error .timeoutError))
    (hi : c.call = some i) (hcall : (callersRun v pre).cli.calls[i]? = some d) (hw : d.pc = .waiting ev)
    (hset : d.set = false) (hcan : .cancel i ∉ loopOf post)
    (hno : ∀ q m rest, loopOf post = q ++ .recv m :: rest → ∀ p, Processes (arun v (loopOf pre ++ q)) m p →
      p.requestId ≠ .int c.args.id) :
    PyDict.get? (callersRun v (pre ++ post)).cli.reqs (.int c.args.id) = some i ∧
    ∃ c', (callersRun v (pre ++ post)).callers[j]? = some c' ∧ c'.out = some (.error .timeoutError) := by
  have hI := CallersInv.run v pre
  have hid : d.req.requestId = .int c.args.id := by
    obtain ⟨d', h1, h2⟩ := (hI.ok j c hc).own i hi
    rw [hcall] at h1
    cases h1
    exact aioRequest_id h2
  rw [loopOf_append] at hd
  rw [hI.cli] at hcall
  obtain ⟨e, e1, e2, e3, e4⟩ := C63_waits v (loopOf pre) (loopOf post) hd i ev d hcall hw hset hcan (by rw [hid]; exact hno)
  refine ⟨?_, ?_⟩
  · rw [(CallersInv.run v (pre ++ post)).cli, loopOf_append]
    have := pending_entry (arun_inv v _ hd) e1 (by rw [e2]; simp) (by rw [e2]; rfl) e3
    rw [e4, hid] at this
    exact this
  · obtain ⟨c', h1, h2, -⟩ := out_persist v pre post j c _ hc ho
    exact ⟨c', h1, h2⟩

/-- C128, what holds: once the coroutine of a call has ended with a response or with `None`, nothing is left of it in
either table, whether or not its caller had given up before. Missing: a coroutine whose caller has given up goes on
waiting, and its event stays until a response comes (`C128_stays`). -/
theorem C128_ended_partial (v : PyVer) (evs : List CallersEv) (hd : DistinctIds (loopOf evs)) (j i : Nat) (c : Caller)
    (d : ACall) (r : CallRes) (hc : (callersRun v evs).callers[j]? = some c) (hi : c.call = some i)
    (hcall : (callersRun v evs).cli.calls[i]? = some d) (hr : d.pc = .done r) (hne : ∀ e, r ≠ .raised e) :
    PyDict.get? (callersRun v evs).cli.reqs (.int c.args.id) = none ∧
    PyDict.get? (callersRun v evs).cli.resps (.int c.args.id) = none := by
  have hI := CallersInv.run v evs
  have hid : d.req.requestId = .int c.args.id := by
    obtain ⟨d', h1, h2⟩ := (hI.ok j c hc).own i hi
    rw [hcall] at h1
    cases h1
    exact aioRequest_id h2
  rw [hI.cli] at hcall ⊢
  have hb := arun_inv v _ hd
  constructor
  · cases hg : PyDict.get? (arun v (loopOf evs)).reqs (.int c.args.id) with
    | none => rfl
    | some ev =>
      obtain ⟨d', h1, h2, -, -, h3⟩ := hb.reqs _ _ hg
      have := (distinct_of hd).eq h1 hcall (h2.trans hid.symm)
      subst this
      rw [show (arun v (loopOf evs)).bk.calls = (arun v (loopOf evs)).calls from rfl, hcall] at h1
      cases h1
      exact absurd (h3 r hr) (hne _)
  · cases hg : PyDict.get? (arun v (loopOf evs)).resps (.int c.args.id) with
    | none => rfl
    | some p =>
      obtain ⟨k, d', h1, h2, -, -, -, -, h3⟩ := hb.resps _ _ hg
      have := (distinct_of hd).eq h1 hcall (h2.trans hid.symm)
      subst this
      rw [show (arun v (loopOf evs)).bk.calls = (arun v (loopOf evs)).calls from rfl, hcall] at h1
      cases h1
      rcases h3 r hr with h | h <;> exact absurd h (hne _)

/-- the first caller of `exCallers` had given up; nothing of it is left -/
example : (callersRun .from38 exCallers).cli.reqs = [] ∧ (callersRun .from38 exCallers).cli.resps = [] := by
  decide +kernel

/-! ## C129 -/

/-- C129 as listed: when the call of `invoke_async` is over, its callback has been called, once. -/
def C129_full : Prop :=
  ∀ (v : PyVer) (evs : List CallersEv), DistinctIds (loopOf evs) →
    ∀ c ∈ (callersRun v evs).callers, c.kind = .async true → c.fut ≠ .pending → c.cbs.length = 1

/-- the connection is refused -/
def exNoServer : List CallersEv :=
  [.invoke (.async true) exCall, .loop (.start 0 exAddr), .loop (.dialed 0 false), .settle 0]

/-- the server answers with an error -/
def exErrorReply : List CallersEv :=
  [.invoke (.async true) exCall, .loop (.start 0 exAddr), .loop (.dialed 0 true), .loop (.drained 0 true),
   .loop (.drained 0 true), .loop (.recv 0), .loop (.data 0 (reply 7 6 [])), .loop (.recv 0), .loop (.recv 0),
   .loop (.wake 0), .settle 0]

set_option maxRecDepth 40000 in
/-- C129 fails: a call that fails, or is answered with an error status, is over without the callback being called. -/
theorem C129_violated : ¬ C129_full ∧
    (callersRun .from38 exErrorReply).callers.map (fun c => (decide (c.fut = .pending), c.cbs)) = [(false, [])] := by
  refine ⟨fun h => ?_, by decide +kernel⟩
  have h1 : ((callersRun .from38 exNoServer).callers.map fun c => (decide (c.kind = .async true), decide (c.fut = .pending),
      c.cbs.length)) = [(true, false, 0)] := by decide +kernel
  cases hs : (callersRun .from38 exNoServer).callers with
  | nil => rw [hs] at h1; cases h1
  | cons c l =>
    rw [hs] at h1
    simp only [List.map_cons, List.cons.injEq, Prod.mk.injEq, decide_eq_true_eq, decide_eq_false_iff_not] at h1
    have := h .from38 exNoServer (by decide +kernel) c (by rw [hs]; simp) h1.1.1 h1.1.2.1
    omega

/-- the timeout of a call that was answered is a number or falsy: others are never sent -/
theorem answered_divides {v : PyVer} {evs : List CallersEv} {c : Caller} (hok : CallerOk (callersRun v evs).cli c) {p : Pkg}
    (hk : c.kind = .async true) (hf : c.fut = .finished (.resp p)) : divides c.args.timeout = true := by
  obtain ⟨i, d, h1, h2, h3⟩ := hok.fin _ hf
  obtain ⟨d', h4, h5⟩ := hok.own i h1
  rw [h2] at h4
  cases h4
  rw [(CallersInv.run v evs).cli] at h2
  cases hs : d.req.toStream with
  | error e =>
    have := arun_before v _ i d h2 e hs
    rw [h3] at this
    cases this
  | ok bs =>
    obtain ⟨-, ht, -⟩ := (C04_encodable_iff d.req).1.1 ⟨bs, hs⟩
    rw [hk] at h5
    unfold aioRequest at h5
    cases hb : c.args.ctx with
    | none => rw [hb] at h5; cases h5
    | some b =>
      rw [hb] at h5
      simp only [bind, Except.bind, CallerKind.request] at h5
      split at h5
      · cases h5
      · obtain ⟨k1, -, -, -, -, -, -, -, -, -, k2, -⟩ := (mkPkg_ok_iff _ _ _ _ _).1 h5
        obtain ⟨t, ht, -⟩ := ht (by rw [k1]; rfl)
        rw [ht] at k2
        unfold divides
        cases hx : c.args.timeout with
        | int _ => simp [isNumber]
        | obj _ => simp [isNumber]
        | none => rfl
        | bytes x => cases x with
          | nil => rfl
          | cons y x => rw [hx] at k2; simp [PyObj.or, PyObj.truthy] at k2
        | str x => cases x with
          | nil => rfl
          | cons y x => rw [hx] at k2; simp [PyObj.or, PyObj.truthy] at k2

/-- C129, what holds: a callback is called at most once. It has been called, with the content of the response, exactly
when the call has ended with a response; it is not called before the call is over, and never if the call failed or was
cancelled. Missing: an error is only logged (or, for an `AttributeError`, left to the future's own logging), the
callback never hears of it. -/
theorem C129_callback_partial (v : PyVer) (evs : List CallersEv) (j : Nat) (c : Caller)
    (hc : (callersRun v evs).callers[j]? = some c) :
    c.cbs.length ≤ 1 ∧
    (∀ p, c.kind = .async true → c.fut = .finished (.resp p) → c.cbs = [p.content]) ∧
    ((∀ p, c.fut ≠ .finished (.resp p)) → c.cbs = []) ∧ (c.kind ≠ .async true → c.cbs = []) ∧
    (∀ i d r, c.call = some i → (callersRun v evs).cli.calls[i]? = some d → d.pc = .done r → c.fut = .pending →
      r ≠ .raised .cancelledError → ∃ c', (callersRun v (evs ++ [.settle j])).callers[j]? = some c' ∧ c'.fut = .finished r) := by
  have hok := (CallersInv.run v evs).ok j c hc
  have h := hok.cbs
  refine ⟨?_, fun p hk hf => ?_, fun hf => ?_, fun hk => ?_, fun i d r hi hd hr hf hne => ?_⟩
  · rw [h]; split <;> simp
  · have : c.hasCallback = true := decide_eq_true ⟨hk, answered_divides hok hk hf⟩
    rw [h, this, hf]
  · rw [h]; split
    · next p _ hp => exact absurd hp (hf p)
    · rfl
  · rw [h]; split
    · next p hp _ => exact absurd (hasCallback_kind hp) hk
    · rfl
  · rw [callersRun_snoc]
    refine ⟨c.settle r, ?_, ?_⟩
    · unfold callersStep
      dsimp only
      rw [hc]
      dsimp only
      rw [hi]
      simp only [Option.bind_some, hd, hr]
      simp [(List.getElem?_eq_some_iff.1 hc).1]
    · unfold Caller.settle Caller.runCallback
      rw [hf]
      simp only [if_neg hne]
      split
      · split <;> rfl
      · rfl

end Bolt
