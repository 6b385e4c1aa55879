import Verif.Lemmas.AioFrame
import Verif.Spec.Listener
/-! C55-C65: the asyncio client. -/
namespace Bolt
open Spec

/-! ## What never changes about a call -/

theorem BStep.persist {mk : Pkg → Prop} {ok : Bk → Pkg → Prop} {a b : Bk} (h : BStep mk ok a b) {i : Nat} {c : ACall}
    (hc : a.calls[i]? = some c) : ∃ c', b.calls[i]? = some c' ∧ c'.req = c.req ∧ (c.pc ≠ .new → c'.pc ≠ .new) ∧
      (c.set = true → c'.set = true) ∧ ∀ r, c.pc = .done r → c'.pc = .done r := by
  have pcs : ∀ (j : Nat) (d : ACall) (pc : CallPc), a.calls[j]? = some d → pc ≠ .new → (∀ r, d.pc ≠ .done r) →
      ∃ c', (a.calls.modify j fun c => { c with pc := pc })[i]? = some c' ∧ c'.req = c.req ∧ (c.pc ≠ .new → c'.pc ≠ .new) ∧
      (c.set = true → c'.set = true) ∧ ∀ r, c.pc = .done r → c'.pc = .done r := by
    intro j d pc hj hn hd
    by_cases e : j = i
    · subst e
      rw [hc] at hj
      cases hj
      exact ⟨_, modify_self hc, rfl, fun _ => hn, id, fun r e => absurd e (hd r)⟩
    · exact ⟨c, by rw [modify_other e]; exact hc, rfl, id, id, fun _ => id⟩
  have same : ∀ l : List ACall, ∃ c', (a.calls ++ l)[i]? = some c' ∧ c'.req = c.req ∧ (c.pc ≠ .new → c'.pc ≠ .new) ∧
      (c.set = true → c'.set = true) ∧ ∀ r, c.pc = .done r → c'.pc = .done r := by
    intro l
    exact ⟨c, by rw [List.getElem?_append_left (List.getElem?_eq_some_iff.1 hc).1]; exact hc, rfl, id, id, fun _ => id⟩
  cases h with
  | call req hm => exact same _
  | start j d pc hj hn hp => exact pcs j d pc hj (sending_cases hp).1 (by rw [hn]; intro r e; cases e)
  | move j d pc hj hn hp => exact pcs j d pc hj (sending_cases hp).1 (sending_cases hn).2.1
  | fail j d hj hn hr => exact pcs j d _ hj (by intro e; cases e) (sending_cases hn).2.1
  | gone j d hj hn hr => exact pcs j d _ hj (by intro e; cases e) (sending_cases hn).2.1
  | wait j d ev hj hn hr => exact pcs j d _ hj (by intro e; cases e) (sending_cases hn).2.1
  | deliver j d ev p hj hn hs hr => exact pcs j d _ hj (by intro e; cases e) (by rw [hn]; intro r e; cases e)
  | missing j d ev hj hn hs hr => exact pcs j d _ hj (by intro e; cases e) (by rw [hn]; intro r e; cases e)
  | cancel j d hj hn => exact pcs j d _ hj (by intro e; cases e) (by intro r e; rw [e] at hn; cases hn)
  | notify p ev hp hr =>
    by_cases e : ev = i
    · subst e
      exact ⟨_, modify_self hc, rfl, id, fun _ => rfl, fun _ => id⟩
    · exact ⟨c, by dsimp only; rw [modify_other e]; exact hc, rfl, id, id, fun _ => id⟩

theorem BSteps.persist {mk : Pkg → Prop} {ok : Bk → Pkg → Prop} {a b : Bk} (h : BSteps mk ok a b) {i : Nat} {c : ACall}
    (hc : a.calls[i]? = some c) : ∃ c', b.calls[i]? = some c' ∧ c'.req = c.req ∧ (c.pc ≠ .new → c'.pc ≠ .new) ∧
      (c.set = true → c'.set = true) ∧ ∀ r, c.pc = .done r → c'.pc = .done r := by
  induction h with
  | refl => exact ⟨c, hc, rfl, id, id, fun _ => id⟩
  | snoc _ h2 ih =>
    obtain ⟨d, d1, d2, d3, d4, d5⟩ := ih
    obtain ⟨e, e1, e2, e3, e4, e5⟩ := h2.persist d1
    exact ⟨e, e1, e2.trans d2, fun h => e3 (d3 h), fun h => e4 (d4 h), fun r h => e5 r (d5 r h)⟩

theorem call_persist (v : PyVer) (evs more : List AEv) {i : Nat} {c : ACall} (hc : (arun v evs).calls[i]? = some c) :
    ∃ c', (arun v (evs ++ more)).calls[i]? = some c' ∧ c'.req = c.req ∧ (c.pc ≠ .new → c'.pc ≠ .new) ∧
      (c.set = true → c'.set = true) ∧ ∀ r, c.pc = .done r → c'.pc = .done r := by
  induction more using snoc_induct with
  | nil => rw [List.append_nil]; exact ⟨c, hc, rfl, id, id, fun _ => id⟩
  | snoc more e ih =>
    obtain ⟨d, d1, d2, d3, d4, d5⟩ := ih
    obtain ⟨f, e1, e2, e3, e4, e5⟩ := (arun_bk v (evs ++ more) e).persist (i := i) (c := d) d1
    rw [List.append_assoc] at e1
    exact ⟨f, e1, e2.trans d2, fun h => e3 (d3 h), fun h => e4 (d4 h), fun r h => e5 r (d5 r h)⟩

/-! ## C55 -/

/-- C55. The response with which a call ends is a frame of the stream of some connection, cut where its units end: a
response with status SUCCESS and the id of the request, read when the call had started and not yet ended. -/
theorem C55_own_response (v : PyVer) (evs : List AEv) (hd : DistinctIds evs) (i : Nat) (c : ACall) (p : Pkg)
    (hc : (arun v evs).calls[i]? = some c) (hr : c.pc = .done (.resp p)) :
    ∃ (pre post : List AEv) (n : Nat) (k : AConn) (c' : ACall) (us : List Bytes) (f : Fields)
      (cn hb ct rest : Bytes), evs = pre ++ .recv n :: post ∧
      (arun v pre).conns[n]? = some k ∧ (arun v pre).calls[i]? = some c' ∧ c'.pc ≠ .new ∧ c'.pc.isDone = false ∧
      (∀ u ∈ us, RespUnit u) ∧ k.recvd = us.flatten ++ frame false f cn hb ct ++ rest ∧ BodyFit cn hb ct ∧
      Fields.Fit false f ∧ f.cmdcode = 2 ∧ f.seventh = 0 ∧ c.req.requestId = .int f.requestId ∧ p.content = .bytes ct := by
  have hk := (arun_inv v evs hd).calls i c hc
  obtain ⟨⟨pre, post, n, k, c', rfl, hkn, hnf, hgood, hc', hid', hnew, hset⟩, hid, -⟩ := hk.delivered p hr
  obtain ⟨us, f, cn, hb, ct, d, rest, h1, h2, h3, h4, h5, h6⟩ := hnf
  refine ⟨pre, post, n, k, c', us, f, cn, hb, ct, rest, rfl, hkn, hc', hnew, ?_, h1, h2, h4, h3, ?_, ?_, ?_, h6.content⟩
  · cases hpc : c'.pc with
    | done r =>
      obtain ⟨c2, e1, -, -, -, e5⟩ := call_persist v pre (.recv n :: post) hc'
      rw [hc] at e1
      cases e1
      have := e5 r hpc
      rw [hr] at this
      cases this
      have := ((arun_inv v pre hd.prefix).calls i c' hc').delivered p hpc
      rw [hset] at this
      cases this.2.2
    | _ => rfl
  · rw [← h6.cmdcode, hgood.1]; rfl
  · have := h6.respstatus
    rw [hgood.2] at this
    exact this.symm
  · rw [← hid, h6.requestId]

/-- the caller of `invoke_sync` gets that content, and the callback of `invoke_async` is called with it -/
theorem C55_content (p : Pkg) (ct : Bytes) (h : p.content = .bytes ct) :
    syncResult (.resp p) = .ok (.bytes ct) ∧ callbackArg (.resp p) = some (.bytes ct) := by
  simp [syncResult, callbackArg, h]

/-! ### an example -/

/-- a request with the given id -/
def exAReq (id : Int) : Pkg :=
  { cls := .boltRequest, header := [], headerBytes := [], content := .bytes [1], proto := .bolt, ptype := .request,
    cmdcode := .request, ver2 := .remoting, requestId := .int id, codec := .protobuf, timeout := .int 100,
    respstatus := .success }

def exAddr : Addr := (py "h", 1)

/-- two calls over one connection, answered in the opposite order -/
def exTwoCalls : List AEv :=
  [.call (exAReq 1), .call (exAReq 2), .start 0 exAddr, .start 1 exAddr, .dialed 0 true, .lock 1, .drained 0 true,
   .drained 1 true, .drained 1 true, .drained 0 true, .recv 0, .data 0 (reply 2 0 [22] ++ (reply 1 0 [11]).take 30),
   .recv 0, .recv 0, .recv 0, .data 0 ((reply 1 0 [11]).drop 30), .recv 0, .wake 0, .wake 1]

set_option maxRecDepth 20000 in
example : DistinctIds exTwoCalls ∧
    ((arun .from38 exTwoCalls).calls.map fun c => match c.pc with | .done r => syncResult r | _ => .error .other) =
      [.ok (.bytes [11]), .ok (.bytes [22])] ∧
    (arun .from38 exTwoCalls).reqs = [] ∧ (arun .from38 exTwoCalls).resps = [] ∧
    (arun .from38 exTwoCalls).conns.length = 1 := by
  decide +kernel


/-! ## Processing one frame -/

/-- The reading task of connection `n` is about to process the package `p`: it has read the fixed part of a frame, the
rest of the frame is there and decodes to `p`, and nothing is wrong with the connection. -/
def Spec.Processes (s : ASt) (n : Nat) (p : Pkg) : Prop :=
  ∃ (k : AConn) (h : BoltHdr) (size : Int), s.conns[n]? = some k ∧ k.pc = .body h ∧ k.cancelled = false ∧ k.lost = false ∧
    bodySize h = .ok size ∧ size.toNat ≤ k.buf.length ∧
    boltContentFromStream .boltResponse (k.buf.take size.toNat) h = .ok p

theorem processes_cls {s : ASt} {n : Nat} {p : Pkg} (h : Processes s n p) : p.cls = .boltResponse := by
  obtain ⟨k, h, size, -, -, -, -, -, -, hd⟩ := h
  unfold boltContentFromStream at hd
  split at hd
  · next q hq =>
    cases hd
    unfold boltContentRaw at hq
    cases h1 : BoltHdr.get h .classLen with
    | error e => rw [h1] at hq; cases hq
    | ok a =>
      cases h2 : BoltHdr.get h .headerLen with
      | error e => rw [h1, h2] at hq; cases hq
      | ok b =>
        cases h3 : BoltHdr.get h .contentLen with
        | error e => rw [h1, h2, h3] at hq; cases hq
        | ok c =>
          rw [h1, h2, h3] at hq
          simp only [bind, Except.bind] at hq
          split at hq
          · next x y z hu =>
            cases hf : headerFromBytes y with
            | error e => rw [hf] at hq; cases hq
            | ok d =>
              rw [hf] at hq
              exact ((mkPkg_ok_iff _ _ _ _ _).1 hq).1
          · cases hq
  · cases hd

/-- what processing a package does -/
theorem recv_processes {s : ASt} {n : Nat} {p : Pkg} (h : Processes s n p) :
    ∃ k', s.recv n = { s with conns := s.conns.set n k' }.onPkg p := by
  obtain ⟨k, h, size, hk, hp, hc, hl, hs, hb, hd⟩ := h
  refine ⟨{ k with buf := k.buf.drop size.toNat, pc := .hdr }, ?_⟩
  unfold ASt.recv
  rw [hk]
  dsimp only
  rw [hp]
  simp only [hc, hl, Bool.or_self, Bool.false_eq_true, if_false, hs, hb, if_true, hd]
  rfl

theorem recv_stray {s : ASt} {n : Nat} {p : Pkg} (h : Processes s n p) (hr : PyDict.get? s.reqs p.requestId = none) :
    ∃ k', s.recv n = { s with conns := s.conns.set n k' } := by
  obtain ⟨k', e⟩ := recv_processes h
  exact ⟨k', by rw [e, onPkg_none]; exact hr⟩

theorem recv_pending {s : ASt} {n : Nat} {p : Pkg} (h : Processes s n p) {ev : Nat}
    (hr : PyDict.get? s.reqs p.requestId = some ev) :
    ∃ k', s.recv n = { s with
      conns := s.conns.set n k'
      reqs := PyDict.erase s.reqs p.requestId
      resps := if p.good then PyDict.set s.resps p.requestId p else s.resps
      calls := s.calls.modify ev fun c => { c with set := true } } := by
  obtain ⟨k', e⟩ := recv_processes h
  exact ⟨k', e.trans (onPkg_some { s with conns := s.conns.set n k' } p (processes_cls h) ev hr)⟩

/-- a call that has started, and has neither ended nor been answered, is entered -/
theorem pending_entry {D : Nat → Pkg → Prop} {s : ASt} (hi : BInv D s.bk) {i : Nat} {c : ACall}
    (hc : s.calls[i]? = some c) (hnew : c.pc ≠ .new) (hnd : c.pc.isDone = false) (hset : c.set = false) :
    PyDict.get? s.reqs c.req.requestId = some i := by
  refine (hi.calls i c hc).pending ?_ hset
  cases hpc : c.pc with
  | new => exact absurd hpc hnew
  | done r => rw [hpc] at hnd; cases hnd
  | waiting ev => exact .inr (by rw [(hi.calls i c hc).own ev hpc])
  | _ => exact .inl rfl

/-! ## C56 -/

/-- the event of the call is set, and there is no response for it -/
structure Doomed (b : Bk) (i : Nat) (id : PyObj) : Prop where
  call : ∃ c, b.calls[i]? = some c ∧ c.req.requestId = id ∧ c.pc ≠ .new ∧ c.set = true ∧
    ∀ r, c.pc = .done r → ∃ e, r = .raised e
  req : PyDict.get? b.reqs id = none
  resp : PyDict.get? b.resps id = none

theorem Doomed.step {mk : Pkg → Prop} {ok : Bk → Pkg → Prop} {D : Nat → Pkg → Prop} {a b : Bk} {i : Nat} {id : PyObj}
    (hs : BStep mk ok a b) (hd : a.Distinct) (hi : BInv D a) (h : Doomed a i id) : Doomed b i id := by
  obtain ⟨⟨c, hc, hid, hnew, hset, hres⟩, hreq, hresp⟩ := h
  -- steps of one call that do not touch the entries
  have own : ∀ (j : Nat) (d : ACall) (pc : CallPc) (reqs' : PyDict PyObj Nat) (resps' : PyDict PyObj Pkg),
      a.calls[j]? = some d → pc ≠ .new → (j = i → ∀ r, pc = .done r → ∃ e, r = .raised e) →
      PyDict.get? reqs' id = none → PyDict.get? resps' id = none →
      Doomed ⟨reqs', resps', a.calls.modify j fun c => { c with pc := pc }⟩ i id := by
    intro j d pc reqs' resps' hj hn hr h1 h2
    refine ⟨?_, h1, h2⟩
    by_cases e : j = i
    · subst e
      exact ⟨_, modify_self hc, hid, hn, hset, hr rfl⟩
    · exact ⟨c, by dsimp only; rw [modify_other e]; exact hc, hid, hnew, hset, hres⟩
  have other : ∀ (j : Nat) (d : ACall), a.calls[j]? = some d → d.pc = .new → d.req.requestId ≠ id := by
    intro j d hj hn e
    have := hd.eq hj hc (e.trans hid.symm)
    subst this
    rw [hc] at hj
    cases hj
    exact hnew hn
  cases hs with
  | call req hm =>
    refine ⟨⟨c, ?_, hid, hnew, hset, hres⟩, hreq, hresp⟩
    dsimp only
    rw [List.getElem?_append_left (List.getElem?_eq_some_iff.1 hc).1]
    exact hc
  | start j d pc hj hn hp =>
    have hne := other j d hj hn
    refine own j d pc _ _ hj (sending_cases hp).1 (fun _ r e => absurd e ((sending_cases hp).2.1 r)) ?_ hresp
    rw [PyDict.get?_set, if_neg hne]
    exact hreq
  | move j d pc hj hn hp =>
    exact own j d pc _ _ hj (sending_cases hp).1 (fun _ r e => absurd e ((sending_cases hp).2.1 r)) hreq hresp
  | fail j d hj hn hr =>
    refine own j d _ _ _ hj (by intro e; cases e) ?_ ?_ hresp
    · rintro rfl r e
      rw [hc] at hj
      cases hj
      obtain ⟨ev, hg⟩ := contains_get hr
      rw [hid, hreq] at hg
      cases hg
    · rw [PyDict.get?_erase hi.nodupReqs, hreq]
      split <;> rfl
  | gone j d hj hn hr =>
    exact own j d _ _ _ hj (by intro e; cases e) (fun _ r e => ⟨_, by cases e; rfl⟩) hreq hresp
  | wait j d ev hj hn hr =>
    exact own j d _ _ _ hj (by intro e; cases e) (fun _ r e => by cases e) hreq hresp
  | deliver j d ev p hj hn hs hr =>
    refine own j d _ _ _ hj (by intro e; cases e) ?_ hreq ?_
    · rintro rfl r e
      rw [hc] at hj
      cases hj
      rw [hid, hresp] at hr
      cases hr
    · rw [PyDict.get?_erase hi.nodupResps, hresp]
      split <;> rfl
  | missing j d ev hj hn hs hr =>
    exact own j d _ _ _ hj (by intro e; cases e) (fun _ r e => ⟨_, by cases e; rfl⟩) hreq hresp
  | cancel j d hj hn =>
    exact own j d _ _ _ hj (by intro e; cases e) (fun _ r e => ⟨_, by cases e; rfl⟩) hreq hresp
  | notify p ev hp hr =>
    have hne : p.requestId ≠ id := by
      intro e
      rw [e, hreq] at hr
      cases hr
    refine ⟨?_, ?_, ?_⟩
    · by_cases e : ev = i
      · subst e
        exact ⟨_, modify_self hc, hid, hnew, rfl, hres⟩
      · exact ⟨c, by dsimp only; rw [modify_other e]; exact hc, hid, hnew, hset, hres⟩
    · dsimp only
      rw [PyDict.get?_erase hi.nodupReqs, if_neg hne]
      exact hreq
    · dsimp only
      split
      · rw [PyDict.get?_set, if_neg hne]
        exact hresp
      · exact hresp

theorem Doomed.run {v : PyVer} {evs more : List AEv} {i : Nat} {id : PyObj} (hd : DistinctIds (evs ++ more))
    (h : Doomed (arun v evs).bk i id) : Doomed (arun v (evs ++ more)).bk i id := by
  induction more using snoc_induct with
  | nil => rw [List.append_nil]; exact h
  | snoc more e ih =>
    rw [← List.append_assoc] at hd ⊢
    have ih := ih hd.prefix
    have hi := arun_inv v (evs ++ more) hd.prefix
    -- all the small steps of the event
    have key : ∀ b, BSteps (fun r => e = .call r) (Receives (arun v (evs ++ more)) e) (arun v (evs ++ more)).bk b → b.Distinct →
        Doomed b i id ∧ BInv (fun _ _ => True) b := by
      intro b hs
      induction hs with
      | refl => exact fun _ => ⟨ih, hi.mono fun _ _ _ => trivial⟩
      | snoc h1 h2 ih2 =>
        intro hdb
        obtain ⟨k1, k2⟩ := ih2 (h2.distinct hdb)
        exact ⟨k1.step h2 (h2.distinct hdb) k2, k2.step h2 hdb fun _ _ _ _ _ _ _ _ _ => trivial⟩
    exact (key _ (arun_bk v (evs ++ more) e) (distinct_of hd)).1

/-- C56. If the frame processed for a call that has started, and has not been answered before, has another status than
SUCCESS (or is no response), the call does not end with a response, whatever comes after: if it ends, it ends with an
exception. -/
theorem C56_error_status (v : PyVer) (pre post : List AEv) (n : Nat) (hd : DistinctIds (pre ++ .recv n :: post))
    (p : Pkg) (hp : Processes (arun v pre) n p) (hbad : p.respstatus ≠ .success ∨ p.cmdcode ≠ .response) (i : Nat)
    (c : ACall) (hc : (arun v pre).calls[i]? = some c) (hid : c.req.requestId = p.requestId) (hnew : c.pc ≠ .new)
    (hnd : c.pc.isDone = false) (hset : c.set = false) :
    ∀ c' r, (arun v (pre ++ .recv n :: post)).calls[i]? = some c' → c'.pc = .done r →
      ∃ e, r = .raised e ∧ syncResult r = .error e ∧ callbackArg r = none := by
  intro c' r hc' hr
  have hi := arun_inv v pre hd.prefix
  have hreq : PyDict.get? (arun v pre).reqs p.requestId = some i := by
    rw [← hid]
    exact pending_entry hi hc hnew hnd hset
  have hgood : ¬ p.good := by
    rintro ⟨h1, h2⟩
    rcases hbad with h | h
    · exact h h2
    · exact h h1
  have hnone : PyDict.get? (arun v pre).resps p.requestId = none := by
    cases hg : PyDict.get? (arun v pre).resps p.requestId with
    | none => rfl
    | some q =>
      obtain ⟨j, d, h1, h2, h3, -⟩ := hi.resps _ _ hg
      have := (distinct_of hd.prefix).eq h1 hc (h2.trans hid.symm)
      subst this
      rw [show (arun v pre).bk.calls = (arun v pre).calls from rfl, hc] at h1
      cases h1
      rw [hset] at h3
      cases h3
  have hdoom : Doomed (arun v (pre ++ [.recv n])).bk i p.requestId := by
    rw [arun_snoc]
    show Doomed ((arun v pre).recv n).bk i p.requestId
    obtain ⟨k', e⟩ := recv_pending hp hreq
    rw [e]
    refine ⟨⟨_, modify_self hc, hid, hnew, rfl, ?_⟩, ?_, ?_⟩
    · intro r e
      rw [show (c.pc : CallPc) = .done r from e] at hnd
      cases hnd
    · exact (PyDict.get?_erase hi.nodupReqs _ _).trans (if_pos rfl)
    · show PyDict.get? (if p.good then _ else _) _ = none
      rw [if_neg hgood]
      exact hnone
  have hlist : pre ++ .recv n :: post = (pre ++ [.recv n]) ++ post := by simp
  rw [hlist] at hd hc'
  obtain ⟨d, h1, -, -, -, h5⟩ := (hdoom.run hd).call
  rw [show (arun v (pre ++ [.recv n] ++ post)).bk.calls = (arun v (pre ++ [.recv n] ++ post)).calls from rfl, hc'] at h1
  cases h1
  obtain ⟨e, rfl⟩ := h5 r hr
  exact ⟨e, rfl, rfl, rfl⟩

/-- the events that bring one call to its `event.wait` -/
def exToWait (req : Pkg) : List AEv :=
  [.call req, .start 0 exAddr, .dialed 0 true, .drained 0 true, .drained 0 true, .recv 0]

set_option maxRecDepth 20000 in
/-- a call answered with NO_PROCESSOR -/
example : let pre := exToWait (exAReq 1) ++ [.data 0 (reply 1 6 []), .recv 0]
    (∃ p, Processes (arun .from38 pre) 0 p ∧ p.requestId = .int 1 ∧ p.respstatus ≠ .success) ∧
    (arun .from38 (pre ++ [.recv 0, .wake 0])).calls.map ACall.pc = [.done (.raised .keyError)] := by
  refine ⟨⟨_, ⟨_, _, _, rfl, rfl, rfl, rfl, rfl, ?_, rfl⟩, ?_⟩, ?_⟩ <;> decide +kernel


/-! ## C57 -/

/-- C57. A response whose id no pending call has changes nothing but the position in the stream of its connection. -/
theorem C57_stray (v : PyVer) (evs : List AEv) (n : Nat) (p : Pkg) (hp : Processes (arun v evs) n p)
    (hr : PyDict.get? (arun v evs).reqs p.requestId = none) :
    ∃ k', arun v (evs ++ [.recv n]) = { arun v evs with conns := (arun v evs).conns.set n k' } := by
  rw [arun_snoc]
  exact recv_stray hp hr

/-- C57. When a frame with the id of a call has been processed after the call started, later frames with the same id are
such stray ones. -/
theorem C57_duplicate (v : PyVer) (pre mid : List AEv) (n : Nat) (hd : DistinctIds (pre ++ .recv n :: mid)) (p : Pkg)
    (hp : Processes (arun v pre) n p) (i : Nat) (c : ACall) (hc : (arun v pre).calls[i]? = some c)
    (hid : c.req.requestId = p.requestId) (hnew : c.pc ≠ .new) :
    PyDict.get? (arun v (pre ++ .recv n :: mid)).reqs p.requestId = none := by
  have hi := arun_inv v pre hd.prefix
  -- after the processing, the event is set or the call has ended otherwise, and there is no entry
  have h1 : PyDict.get? (arun v (pre ++ [.recv n])).reqs p.requestId = none := by
    rw [arun_snoc]
    show PyDict.get? ((arun v pre).recv n).reqs p.requestId = none
    cases hr : PyDict.get? (arun v pre).reqs p.requestId with
    | none =>
      obtain ⟨k', e⟩ := recv_stray hp hr
      rw [e]
      exact hr
    | some ev =>
      obtain ⟨k', e⟩ := recv_pending hp hr
      rw [e]
      exact (PyDict.get?_erase hi.nodupReqs _ _).trans (if_pos rfl)
  have hlist : pre ++ .recv n :: mid = (pre ++ [.recv n]) ++ mid := by simp
  rw [hlist] at hd ⊢
  -- no step enters the id of a call that has started
  have key : ∀ mid, DistinctIds (pre ++ [.recv n] ++ mid) →
      PyDict.get? (arun v (pre ++ [.recv n] ++ mid)).reqs p.requestId = none := by
    intro mid
    induction mid using snoc_induct with
    | nil => intro _; rw [List.append_nil]; exact h1
    | snoc mid e ih =>
      intro hd
      rw [← List.append_assoc] at hd ⊢
      have ih := ih hd.prefix
      obtain ⟨d, d1, d2, d3, -⟩ := call_persist v pre ([.recv n] ++ mid) hc
      rw [← List.append_assoc] at d1
      have hiv := (arun_inv v _ hd.prefix).mono (D' := fun _ _ => True) fun _ _ _ => trivial
      have all : ∀ b, BSteps (fun r => e = .call r) (Receives (arun v (pre ++ [.recv n] ++ mid)) e)
          (arun v (pre ++ [.recv n] ++ mid)).bk b → b.Distinct →
          PyDict.get? b.reqs p.requestId = none ∧ BInv (fun _ _ => True) b ∧
          ∃ d, b.calls[i]? = some d ∧ d.req.requestId = p.requestId ∧ d.pc ≠ .new := by
        intro b hs
        induction hs with
        | refl => exact fun _ => ⟨ih, hiv, d, d1, by rw [d2]; exact hid, d3 hnew⟩
        | snoc h1 h2 ih2 =>
          intro hdb
          obtain ⟨k1, k2, d, k3, k4, k5⟩ := ih2 (h2.distinct hdb)
          have hdb' := h2.distinct hdb
          refine ⟨?_, k2.step h2 hdb fun _ _ _ _ _ _ _ _ _ => trivial, ?_⟩
          · cases h2 with
            | start j c' pc hj hn hp =>
              show PyDict.get? (PyDict.set _ _ _) _ = none
              rw [PyDict.get?_set, if_neg]
              · exact k1
              · intro e
                have := hdb'.eq hj k3 (e.trans k4.symm)
                subst this
                rw [k3] at hj
                cases hj
                exact k5 hn
            | fail j c' hj hn hr =>
              show PyDict.get? (PyDict.erase _ _) _ = none
              rw [PyDict.get?_erase k2.nodupReqs, k1]
              split <;> rfl
            | notify q ev hq hr =>
              show PyDict.get? (PyDict.erase _ _) _ = none
              rw [PyDict.get?_erase k2.nodupReqs, k1]
              split <;> rfl
            | _ => exact k1
          · obtain ⟨d', e1, e2, e3, -⟩ := h2.persist k3
            exact ⟨d', e1, by rw [e2]; exact k4, e3 k5⟩
      exact (all _ (arun_bk v _ e) (distinct_of hd)).1
  exact key mid hd

set_option maxRecDepth 20000 in
/-- a second answer to the same call -/
example : let pre := exToWait (exAReq 1) ++ [.data 0 (reply 1 0 [7] ++ reply 1 0 [8]), .recv 0, .recv 0, .recv 0]
    (∃ p, Processes (arun .from38 pre) 0 p ∧ p.requestId = .int 1) ∧
    (arun .from38 (pre ++ [.recv 0, .wake 0])).calls.map ACall.pc = (arun .from38 (pre ++ [.wake 0])).calls.map ACall.pc ∧
    (arun .from38 (pre ++ [.recv 0, .wake 0])).resps = [] := by
  refine ⟨⟨_, ⟨_, _, _, rfl, rfl, rfl, rfl, rfl, ?_, rfl⟩, ?_⟩, ?_⟩ <;> decide +kernel

/-! ## C58 -/

/-- C58 as listed: when every call has finished, nothing is left. -/
def C58_full : Prop :=
  ∀ (v : PyVer) (evs : List AEv), DistinctIds evs → (∀ c ∈ (arun v evs).calls, c.pc.isDone = true) →
    (arun v evs).reqs = [] ∧ (arun v evs).resps = []

/-- the answer comes before the second `drain` has returned -/
def exEarly : List AEv :=
  [.call (exAReq 1), .start 0 exAddr, .dialed 0 true, .drained 0 true, .recv 0, .data 0 (reply 1 0 [7]), .recv 0, .recv 0,
   .drained 0 true]

set_option maxRecDepth 20000 in
/-- An answer that comes while the request is still being flushed makes the call fail with a `KeyError`, and the
response stays; a cancelled call leaves its event. -/
theorem C58_violated : ¬ C58_full ∧
    ((arun .from38 exEarly).calls.map ACall.pc = [.done (.raised .keyError)] ∧ (arun .from38 exEarly).resps.length = 1) ∧
    (arun .upTo37 (exToWait (exAReq 1) ++ [.cancel 0])).reqs.length = 1 ∧
    (arun .from38 (exToWait (exAReq 1) ++ [.cancel 0])).reqs.length = 1 := by
  refine ⟨?_, by decide +kernel, by decide +kernel, by decide +kernel⟩
  intro h
  have := (h .from38 exEarly (by decide +kernel) (by decide +kernel)).2
  revert this
  decide +kernel

/-- C58, what holds: when every call has finished, what is left belongs to calls that were cancelled, or (a response) to
calls that ended with a `KeyError`. So nothing is left if all calls ended with a response or with `None`. Missing: the
entries of cancelled calls and of calls answered early are never removed. -/
theorem C58_leftovers_partial (v : PyVer) (evs : List AEv) (hd : DistinctIds evs)
    (hdone : ∀ c ∈ (arun v evs).calls, c.pc.isDone = true) :
    (∀ id ev, PyDict.get? (arun v evs).reqs id = some ev → ∃ c, (arun v evs).calls[ev]? = some c ∧
      c.req.requestId = id ∧ c.pc = .done (.raised .cancelledError)) ∧
    (∀ id p, PyDict.get? (arun v evs).resps id = some p → ∃ c ∈ (arun v evs).calls,
      c.req.requestId = id ∧ (c.pc = .done (.raised .cancelledError) ∨ c.pc = .done (.raised .keyError))) ∧
    ((∀ c ∈ (arun v evs).calls, ∀ e, c.pc ≠ .done (.raised e)) → (arun v evs).reqs = [] ∧ (arun v evs).resps = []) := by
  have hi := arun_inv v evs hd
  have h1 : ∀ id ev, PyDict.get? (arun v evs).reqs id = some ev → ∃ c, (arun v evs).calls[ev]? = some c ∧
      c.req.requestId = id ∧ c.pc = .done (.raised .cancelledError) := by
    intro id ev hg
    obtain ⟨c, c1, c2, -, -, c5⟩ := hi.reqs id ev hg
    refine ⟨c, c1, c2, ?_⟩
    have := hdone c (List.mem_of_getElem? c1)
    cases hpc : c.pc with
    | done r => rw [c5 r hpc]
    | _ => rw [hpc] at this; cases this
  have h2 : ∀ id p, PyDict.get? (arun v evs).resps id = some p → ∃ c ∈ (arun v evs).calls,
      c.req.requestId = id ∧ (c.pc = .done (.raised .cancelledError) ∨ c.pc = .done (.raised .keyError)) := by
    intro id p hg
    obtain ⟨i, c, c1, c2, -, -, -, -, c7⟩ := hi.resps id p hg
    refine ⟨c, List.mem_of_getElem? c1, c2, ?_⟩
    have := hdone c (List.mem_of_getElem? c1)
    cases hpc : c.pc with
    | done r =>
      rcases c7 r hpc with rfl | rfl
      · exact .inl rfl
      · exact .inr rfl
    | _ => rw [hpc] at this; cases this
  refine ⟨h1, h2, ?_⟩
  intro hno
  constructor
  · cases hl : (arun v evs).reqs with
    | nil => rfl
    | cons x xs =>
      obtain ⟨c, c1, -, c3⟩ := h1 x.1 x.2 (by rw [hl]; simp [PyDict.get?])
      exact absurd c3 (hno c (List.mem_of_getElem? c1) _)
  · cases hl : (arun v evs).resps with
    | nil => rfl
    | cons x xs =>
      obtain ⟨c, c1, -, c3⟩ := h2 x.1 x.2 (by rw [hl]; simp [PyDict.get?])
      rcases c3 with c3 | c3
      · exact absurd c3 (hno c c1 _)
      · exact absurd c3 (hno c c1 _)

set_option maxRecDepth 20000 in
example : (∀ c ∈ (arun .from38 exTwoCalls).calls, c.pc.isDone = true) ∧
    (∀ c ∈ (arun .from38 exTwoCalls).calls, (match c.pc with | .done (.raised _) => false | _ => true) = true) := by
  decide +kernel

/-! ## C59 -/

/-- C59 as listed: the response processed for a pending call is what the call returns, once it has run. -/
def C59_full : Prop :=
  ∀ (v : PyVer) (pre post : List AEv) (n i : Nat) (p : Pkg) (c c' : ACall) (r : CallRes), DistinctIds (pre ++ .recv n :: post) →
    Processes (arun v pre) n p → p.good → (arun v pre).calls[i]? = some c → c.req.requestId = p.requestId →
    c.pc ≠ .new → c.pc.isDone = false → c.set = false → .cancel i ∉ post →
    (arun v (pre ++ .recv n :: post)).calls[i]? = some c' → c'.pc = .done r → r = .resp p

set_option maxRecDepth 20000 in
theorem C59_violated : ¬ C59_full := by
  intro h
  have := h .from38 (exEarly.take 7) [.drained 0 true] 0 0 _ _ _ _ (by decide +kernel)
    ⟨_, _, _, rfl, rfl, rfl, rfl, rfl, by decide +kernel, rfl⟩ (by decide +kernel) rfl rfl
    (by decide +kernel) (by decide +kernel) (by decide +kernel) (by decide +kernel) rfl rfl
  revert this
  decide +kernel

/-- the call waits, its event is set and its response is there -/
structure Ready (b : Bk) (i : Nat) (id : PyObj) (p : Pkg) : Prop where
  call : ∃ c, b.calls[i]? = some c ∧ c.req.requestId = id ∧ c.pc = .waiting i ∧ c.set = true
  req : PyDict.get? b.reqs id = none
  resp : PyDict.get? b.resps id = some p

/-- the call has returned its response -/
def Returned (b : Bk) (i : Nat) (p : Pkg) : Prop := ∃ c, b.calls[i]? = some c ∧ c.pc = .done (.resp p)

theorem Ready.step {mk : Pkg → Prop} {ok : Bk → Pkg → Prop} {D : Nat → Pkg → Prop} {a b : Bk} {i : Nat} {id : PyObj}
    {p : Pkg} (hs : BStep mk ok a b) (hd : a.Distinct) (hi : BInv D a) (h : Ready a i id p) :
    Ready b i id p ∨ Returned b i p ∨ (∃ c, b.calls[i]? = some c ∧ c.pc = .done (.raised .cancelledError)) := by
  obtain ⟨⟨c, hc, hid, hpc, hset⟩, hreq, hresp⟩ := h
  have keep : ∀ (j : Nat) (d : ACall) (pc : CallPc) (reqs' : PyDict PyObj Nat) (resps' : PyDict PyObj Pkg),
      a.calls[j]? = some d → d.pc ≠ .waiting i →
      PyDict.get? reqs' id = none → PyDict.get? resps' id = some p →
      Ready ⟨reqs', resps', a.calls.modify j fun c => { c with pc := pc }⟩ i id p := by
    intro j d pc reqs' resps' hj hn h1 h2
    have : j ≠ i := by
      rintro rfl
      rw [hc] at hj
      cases hj
      exact hn hpc
    exact ⟨⟨c, by dsimp only; rw [modify_other this]; exact hc, hid, hpc, hset⟩, h1, h2⟩
  cases hs with
  | call req hm =>
    refine .inl ⟨⟨c, ?_, hid, hpc, hset⟩, hreq, hresp⟩
    dsimp only
    rw [List.getElem?_append_left (List.getElem?_eq_some_iff.1 hc).1]
    exact hc
  | start j d pc hj hn hp =>
    refine .inl (keep j d pc _ _ hj (by rw [hn]; intro e; cases e) ?_ hresp)
    rw [PyDict.get?_set, if_neg]
    · exact hreq
    · intro e
      have := hd.eq hj hc (e.trans hid.symm)
      subst this
      rw [hc] at hj
      cases hj
      rw [hn] at hpc
      cases hpc
  | move j d pc hj hn hp => exact .inl (keep j d pc _ _ hj ((sending_cases hn).2.2 i) hreq hresp)
  | fail j d hj hn hr =>
    refine .inl (keep j d _ _ _ hj ((sending_cases hn).2.2 i) ?_ hresp)
    rw [PyDict.get?_erase hi.nodupReqs, hreq]
    split <;> rfl
  | gone j d hj hn hr => exact .inl (keep j d _ _ _ hj ((sending_cases hn).2.2 i) hreq hresp)
  | wait j d ev hj hn hr => exact .inl (keep j d _ _ _ hj ((sending_cases hn).2.2 i) hreq hresp)
  | deliver j d ev q hj hn hs hr =>
    by_cases e : j = i
    · subst e
      rw [hc] at hj
      cases hj
      rw [hid, hresp] at hr
      cases hr
      exact .inr (.inl ⟨_, modify_self hc, rfl⟩)
    · refine .inl ⟨⟨c, ?_, hid, hpc, hset⟩, hreq, ?_⟩
      · show (a.calls.modify _ _)[i]? = some c
        rw [modify_other e]; exact hc
      · show PyDict.get? (PyDict.erase _ _) _ = _
        rw [PyDict.get?_erase hi.nodupResps, if_neg]
        · exact hresp
        · intro e'
          exact e (hd.eq hj hc (e'.trans hid.symm))
  | missing j d ev hj hn hs hr =>
    by_cases e : j = i
    · subst e
      rw [hc] at hj
      cases hj
      rw [hid, hresp] at hr
      cases hr
    · refine .inl ⟨⟨c, ?_, hid, hpc, hset⟩, hreq, hresp⟩
      show (a.calls.modify _ _)[i]? = some c
      rw [modify_other e]; exact hc
  | cancel j d hj hn =>
    by_cases e : j = i
    · subst e
      exact .inr (.inr ⟨_, modify_self hj, rfl⟩)
    · refine .inl ⟨⟨c, ?_, hid, hpc, hset⟩, hreq, hresp⟩
      show (a.calls.modify _ _)[i]? = some c
      rw [modify_other e]; exact hc
  | notify q ev hp hr =>
    have hne : q.requestId ≠ id := by
      intro e
      rw [e, hreq] at hr
      cases hr
    refine .inl ⟨?_, ?_, ?_⟩
    · by_cases e : ev = i
      · subst e
        exact ⟨_, modify_self hc, hid, hpc, rfl⟩
      · exact ⟨c, by dsimp only; rw [modify_other e]; exact hc, hid, hpc, hset⟩
    · dsimp only
      rw [PyDict.get?_erase hi.nodupReqs, if_neg hne]
      exact hreq
    · dsimp only
      split
      · rw [PyDict.get?_set, if_neg hne]
        exact hresp
      · exact hresp

/-- C59, what holds: if the call already waits for its response when a SUCCESS response with its id is processed, then,
whatever comes after (other frames, failures, the end of the connection) except a cancellation of the call, it stays
ready to return that very package, and it has returned it as soon as it has been scheduled. Missing: a response processed
while the request is still being flushed makes the call fail (`C59_violated`). -/
theorem C59_waiting_partial (v : PyVer) (pre post : List AEv) (n : Nat) (hd : DistinctIds (pre ++ .recv n :: post))
    (p : Pkg) (hp : Processes (arun v pre) n p) (hgood : p.cmdcode = .response ∧ p.respstatus = .success) (i ev : Nat)
    (c : ACall) (hc : (arun v pre).calls[i]? = some c) (hid : c.req.requestId = p.requestId) (hw : c.pc = .waiting ev)
    (hset : c.set = false) (hcan : .cancel i ∉ post) :
    ∃ c', (arun v (pre ++ .recv n :: post)).calls[i]? = some c' ∧
      (c'.pc = .done (.resp p) ∨
        c'.pc = .waiting i ∧ ∃ c'', (arun v (pre ++ .recv n :: post ++ [.wake i])).calls[i]? = some c'' ∧ c''.pc = .done (.resp p)) ∧
      (.wake i ∈ post → c'.pc = .done (.resp p)) := by
  have hi := arun_inv v pre hd.prefix
  have hev : ev = i := (hi.calls i c hc).own ev hw
  subst hev
  have hreq : PyDict.get? (arun v pre).reqs p.requestId = some ev := by
    rw [← hid]
    exact pending_entry hi hc (by rw [hw]; intro e; cases e) (by rw [hw]; rfl) hset
  have hready : Ready (arun v (pre ++ [.recv n])).bk ev p.requestId p := by
    rw [arun_snoc]
    show Ready ((arun v pre).recv n).bk ev p.requestId p
    obtain ⟨k', e⟩ := recv_pending hp hreq
    rw [e]
    refine ⟨⟨_, modify_self hc, hid, hw, rfl⟩, ?_, ?_⟩
    · exact (PyDict.get?_erase hi.nodupReqs _ _).trans (if_pos rfl)
    · show PyDict.get? (if p.good then _ else _) _ = some p
      rw [if_pos (show p.good from hgood), PyDict.get?_set, if_pos rfl]
  have hlist : ∀ post, pre ++ .recv n :: post = (pre ++ [.recv n]) ++ post := by simp
  -- waking up a ready call
  have wake : ∀ s : ASt, Ready s.bk ev p.requestId p → Returned (s.wake ev).bk ev p := by
    rintro s ⟨⟨d, d1, d2, d3, d4⟩, -, h3⟩
    have e1 : s.calls[ev]? = some d := d1
    have e2 : PyDict.get? s.resps d.req.requestId = some p := by rw [d2]; exact h3
    have : s.wake ev = { s with resps := PyDict.erase s.resps d.req.requestId }.setPc ev (.done (.resp p)) := by
      unfold ASt.wake
      simp only [e1, d3, Option.map_some, d4, if_true, e2]
    rw [this]
    exact ⟨_, modify_self (l := s.calls) e1, rfl⟩
  -- along the rest of the schedule
  have key : ∀ post, DistinctIds (pre ++ .recv n :: post) → .cancel ev ∉ post →
      (Ready (arun v (pre ++ .recv n :: post)).bk ev p.requestId p ∧ .wake ev ∉ post) ∨
      Returned (arun v (pre ++ .recv n :: post)).bk ev p := by
    intro post
    induction post using snoc_induct with
    | nil => exact fun _ _ => .inl ⟨hready, List.not_mem_nil⟩
    | snoc post e ih =>
      intro hd hcan
      have hl : pre ++ .recv n :: (post ++ [e]) = (pre ++ .recv n :: post) ++ [e] := by simp
      rw [hl] at hd ⊢
      rcases ih hd.prefix (fun h => hcan (List.mem_append_left _ h)) with ⟨h, hnw⟩ | ⟨d, d1, d2⟩
      · by_cases hw : e = .wake ev
        · subst hw
          right
          rw [arun_snoc]
          exact wake _ h
        · left
          constructor
          · -- all the small steps of the event
            have hiv := (arun_inv v _ hd.prefix).mono (D' := fun _ _ => True) fun _ _ _ => trivial
            obtain ⟨d, d1, d2, d3, d4⟩ := h.call
            obtain ⟨d', f1, f2, -, -⟩ := astep_waiting v _ e d1 d3 hw
              (fun he => hcan (by rw [he]; exact List.mem_append_right _ (List.mem_singleton.2 rfl)))
            have all : ∀ b, BSteps (fun r => e = .call r) (Receives (arun v (pre ++ .recv n :: post)) e)
                (arun v (pre ++ .recv n :: post)).bk b → b.Distinct →
                BInv (fun _ _ => True) b ∧
                (Ready b ev p.requestId p ∨ ∃ d r, b.calls[ev]? = some d ∧ d.pc = .done r) := by
              intro b hs
              induction hs with
              | refl => exact fun _ => ⟨hiv, .inl h⟩
              | snoc h1 h2 ih2 =>
                intro hdb
                obtain ⟨k1, k2⟩ := ih2 (h2.distinct hdb)
                refine ⟨k1.step h2 hdb fun _ _ _ _ _ _ _ _ _ => trivial, ?_⟩
                rcases k2 with k2 | ⟨d, r, k2, k3⟩
                · rcases k2.step h2 (h2.distinct hdb) k1 with k | ⟨d, k, k'⟩ | ⟨d, k, k'⟩
                  · exact .inl k
                  · exact .inr ⟨d, _, k, k'⟩
                  · exact .inr ⟨d, _, k, k'⟩
                · obtain ⟨d', e1, -, -, -, e5⟩ := h2.persist k2
                  exact .inr ⟨d', r, e1, e5 r k3⟩
            rcases (all _ (arun_bk v _ e) (distinct_of hd)).2 with k | ⟨d2, r, k, k'⟩
            · exact k
            · rw [← arun_snoc] at f1
              rw [show (arun v (pre ++ .recv n :: post ++ [e])).bk.calls = (arun v (pre ++ .recv n :: post ++ [e])).calls
                from rfl, f1] at k
              cases k
              rw [f2] at k'
              cases k'
          · intro h
            rcases List.mem_append.1 h with h | h
            · exact hnw h
            · exact hw (List.mem_singleton.1 h).symm
      · right
        obtain ⟨d', e1, -, -, -, e5⟩ := call_persist v (pre ++ .recv n :: post) [e] (show (arun v (pre ++ .recv n :: post)).calls[ev]? = some d from d1)
        exact ⟨d', e1, e5 _ d2⟩
  rcases key post hd hcan with ⟨h, hnw⟩ | ⟨d, d1, d2⟩
  · obtain ⟨d, d1, d2, d3, d4⟩ := h.call
    refine ⟨d, d1, .inr ⟨d3, ?_⟩, fun hw => absurd hw hnw⟩
    rw [arun_snoc]
    exact wake _ h
  · exact ⟨d, d1, .inl d2, fun _ => d2⟩

set_option maxRecDepth 20000 in
/-- the connection is lost after the response has been read -/
example : let pre := exToWait (exAReq 1) ++ [.data 0 (reply 1 0 [7]), .recv 0]
    (∃ p, Processes (arun .from38 pre) 0 p ∧ (p.cmdcode = .response ∧ p.respstatus = .success) ∧ p.requestId = .int 1 ∧
      p.content = .bytes [7]) ∧
    ((arun .from38 pre).calls.map fun c => (c.pc, c.set)) = [(.waiting 0, false)] ∧
    ((arun .from38 (pre ++ [.recv 0, .reset 0, .recv 0, .wake 0])).calls.map fun c =>
      match c.pc with | .done r => syncResult r | _ => .error .other) = [.ok (.bytes [7])] := by
  refine ⟨⟨_, ⟨_, _, _, rfl, rfl, rfl, rfl, rfl, ?_, rfl⟩, ?_⟩, ?_, ?_⟩ <;> decide +kernel

/-! ### A response that comes too early -/

/-- the call is still sending, and its event has been taken out already -/
structure Early (b : Bk) (i : Nat) (id : PyObj) : Prop where
  call : ∃ c, b.calls[i]? = some c ∧ c.req.requestId = id ∧ c.pc.sending = true
  req : PyDict.get? b.reqs id = none

theorem Early.step {mk : Pkg → Prop} {ok : Bk → Pkg → Prop} {D : Nat → Pkg → Prop} {a b : Bk} {i : Nat} {id : PyObj}
    (hs : BStep mk ok a b) (hd : a.Distinct) (hi : BInv D a) (h : Early a i id) :
    Early b i id ∨ (∃ c e, b.calls[i]? = some c ∧ c.pc = .done (.raised e) ∧ (e = .keyError ∨ e = .cancelledError)) := by
  obtain ⟨⟨c, hc, hid, hpc⟩, hreq⟩ := h
  have same : ∀ {d : ACall}, a.calls[i]? = some d → d = c := fun hj => by rw [hc] at hj; cases hj; rfl
  have keep : ∀ (j : Nat) (pc : CallPc) (reqs' : PyDict PyObj Nat) (resps' : PyDict PyObj Pkg),
      (j = i → pc.sending = true) → PyDict.get? reqs' id = none →
      Early ⟨reqs', resps', a.calls.modify j fun c => { c with pc := pc }⟩ i id := by
    intro j pc reqs' resps' hn h1
    by_cases e : j = i
    · subst e
      exact ⟨⟨_, modify_self hc, hid, hn rfl⟩, h1⟩
    · exact ⟨⟨c, by dsimp only; rw [modify_other e]; exact hc, hid, hpc⟩, h1⟩
  cases hs with
  | call req hm =>
    refine .inl ⟨⟨c, ?_, hid, hpc⟩, hreq⟩
    dsimp only
    rw [List.getElem?_append_left (List.getElem?_eq_some_iff.1 hc).1]
    exact hc
  | start j d pc hj hn hp =>
    have hji : j ≠ i := by
      rintro rfl
      cases same hj
      rw [hn] at hpc
      cases hpc
    refine .inl (keep j pc _ _ (fun e => absurd e hji) ?_)
    rw [PyDict.get?_set, if_neg]
    · exact hreq
    · intro e
      exact hji (hd.eq hj hc (e.trans hid.symm))
  | move j d pc hj hn hp => exact .inl (keep j pc _ _ (fun _ => hp) hreq)
  | fail j d hj hn hr =>
    have hji : j ≠ i := by
      rintro rfl
      cases same hj
      rw [hid] at hr
      unfold PyDict.contains at hr
      rw [hreq] at hr
      cases hr
    refine .inl (keep j _ _ _ (fun e => absurd e hji) ?_)
    rw [PyDict.get?_erase hi.nodupReqs, hreq]
    split <;> rfl
  | gone j d hj hn hr =>
    by_cases e : j = i
    · subst e
      exact .inr ⟨_, _, modify_self hc, rfl, .inl rfl⟩
    · exact .inl (keep j _ _ _ (fun h => absurd h e) hreq)
  | wait j d ev hj hn hr =>
    have hji : j ≠ i := by
      rintro rfl
      cases same hj
      rw [hid, hreq] at hr
      cases hr
    exact .inl (keep j _ _ _ (fun e => absurd e hji) hreq)
  | deliver j d ev q hj hn hs hr =>
    have hji : j ≠ i := by
      rintro rfl
      cases same hj
      rw [hn] at hpc
      cases hpc
    exact .inl (keep j _ _ _ (fun e => absurd e hji) hreq)
  | missing j d ev hj hn hs hr =>
    have hji : j ≠ i := by
      rintro rfl
      cases same hj
      rw [hn] at hpc
      cases hpc
    exact .inl (keep j _ _ _ (fun e => absurd e hji) hreq)
  | cancel j d hj hn =>
    by_cases e : j = i
    · subst e
      exact .inr ⟨_, _, modify_self hj, rfl, .inr rfl⟩
    · exact .inl (keep j _ _ _ (fun h => absurd h e) hreq)
  | notify q ev hp hr =>
    refine .inl ⟨?_, ?_⟩
    · by_cases e : ev = i
      · subst e
        exact ⟨_, modify_self hc, hid, hpc⟩
      · exact ⟨c, by dsimp only; rw [modify_other e]; exact hc, hid, hpc⟩
    · dsimp only
      rw [PyDict.get?_erase hi.nodupReqs, hreq]
      split <;> rfl

/-- What becomes of every call whose response is processed while its request is still being sent (flushed, or sent once more on
another connection): it never returns, whatever comes after; it can only end with a KeyError, or by cancellation. -/
theorem C59_early (v : PyVer) (pre post : List AEv) (n : Nat) (hd : DistinctIds (pre ++ .recv n :: post))
    (p : Pkg) (hp : Processes (arun v pre) n p) (i : Nat)
    (c : ACall) (hc : (arun v pre).calls[i]? = some c) (hid : c.req.requestId = p.requestId) (hw : c.pc.sending = true)
    (hset : c.set = false) :
    ∃ c', (arun v (pre ++ .recv n :: post)).calls[i]? = some c' ∧
      (c'.pc.sending = true ∨ c'.pc = .done (.raised .keyError) ∨ c'.pc = .done (.raised .cancelledError)) := by
  have hi := arun_inv v pre hd.prefix
  have hnew : c.pc ≠ .new := (fun e => by rw [e] at hw; cases hw)
  have hdone : c.pc.isDone = false := by
    cases hpc : c.pc <;> rw [hpc] at hw <;> first | rfl | cases hw
  have hreq : PyDict.get? (arun v pre).reqs p.requestId = some i := by
    rw [← hid]
    exact pending_entry hi hc hnew hdone hset
  have hearly : Early (arun v (pre ++ [.recv n])).bk i p.requestId := by
    rw [arun_snoc]
    show Early ((arun v pre).recv n).bk i p.requestId
    obtain ⟨k', e⟩ := recv_pending hp hreq
    rw [e]
    exact ⟨⟨_, modify_self hc, hid, hw⟩, (PyDict.get?_erase hi.nodupReqs _ _).trans (if_pos rfl)⟩
  have key : ∀ post, DistinctIds (pre ++ .recv n :: post) →
      Early (arun v (pre ++ .recv n :: post)).bk i p.requestId ∨
      (∃ c e, (arun v (pre ++ .recv n :: post)).calls[i]? = some c ∧ c.pc = .done (.raised e) ∧
        (e = .keyError ∨ e = .cancelledError)) := by
    intro post
    induction post using snoc_induct with
    | nil => exact fun _ => .inl hearly
    | snoc post e ih =>
      intro hd
      have hl : pre ++ .recv n :: (post ++ [e]) = (pre ++ .recv n :: post) ++ [e] := by simp
      rw [hl] at hd ⊢
      rcases ih hd.prefix with h | ⟨d, x, d1, d2, d3⟩
      · have hiv := (arun_inv v _ hd.prefix).mono (D' := fun _ _ => True) fun _ _ _ => trivial
        have all : ∀ b, BSteps (fun r => e = .call r) (Receives (arun v (pre ++ .recv n :: post)) e)
            (arun v (pre ++ .recv n :: post)).bk b → b.Distinct →
            BInv (fun _ _ => True) b ∧
            (Early b i p.requestId ∨ ∃ c e, b.calls[i]? = some c ∧ c.pc = .done (.raised e) ∧
              (e = .keyError ∨ e = .cancelledError)) := by
          intro b hs
          induction hs with
          | refl => exact fun _ => ⟨hiv, .inl h⟩
          | snoc h1 h2 ih2 =>
            intro hdb
            obtain ⟨k1, k2⟩ := ih2 (h2.distinct hdb)
            refine ⟨k1.step h2 hdb fun _ _ _ _ _ _ _ _ _ => trivial, ?_⟩
            rcases k2 with k2 | ⟨d, r, k2, k3, k4⟩
            · exact k2.step h2 (h2.distinct hdb) k1
            · obtain ⟨d', e1, -, -, -, e5⟩ := h2.persist k2
              exact .inr ⟨d', r, e1, e5 _ k3, k4⟩
        exact (all _ (arun_bk v _ e) (distinct_of hd)).2
      · obtain ⟨d', e1, -, -, -, e5⟩ := call_persist v (pre ++ .recv n :: post) [e] d1
        exact .inr ⟨d', x, e1, e5 _ d2, d3⟩
  rcases key post hd with h | ⟨d, e, d1, d2, rfl | rfl⟩
  · obtain ⟨d, d1, -, d3⟩ := h.call
    exact ⟨d, d1, .inl d3⟩
  · exact ⟨d, d1, .inr (.inl d2)⟩
  · exact ⟨d, d1, .inr (.inr d2)⟩

set_option maxRecDepth 20000 in
example : ((arun .from38 (exEarly.take 7)).calls.map fun c => (c.pc.sending, c.set)) = [(true, false)] ∧
    ((arun .from38 exEarly).calls.map fun c => decide (c.pc = .done (.raised .keyError))) = [true] := by
  constructor <;> decide +kernel

end Bolt
