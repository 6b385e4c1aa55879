import Verif.Props.Intake
import Verif.Props.AioFrames
import Verif.Props.AioFail
import Verif.Props.Quiet
/-! C174: a response that cannot be decoded. -/
namespace Bolt
open Spec

namespace Spec

/-- the parts of the frame have sizes and values that the layout can carry -/
def RespFrame.Fits (q : RespFrame) : Prop := Fields.Fit false q.f ∧ BodyFit q.cls q.hdr q.content

/-- what the clients need to decode a frame: the codes are ones that constants.py lists and the header section is a list of
strings -/
def RespFrame.Understood (q : RespFrame) : Prop := KnownCodes false q.f ∧ ∃ d, headerFromBytes q.hdr = .ok d

end Spec

/-! ## Which frames cannot be decoded -/

theorem understood_iff {q : RespFrame} (h : q.Fits) : (∃ p, fromStream .boltResponse q.bytes = .ok p) ↔ q.Understood := by
  constructor
  · rintro ⟨p, hp⟩
    rw [fromStream_ok_iff] at hp
    obtain ⟨f, cn, hb, ct, d, e, h1, h2, h3, h4⟩ := hp
    obtain ⟨rfl, rfl, rfl, rfl⟩ := frame_inj e h.1 h1 h.2 h2
    exact ⟨known_of_decodes h4, d, h3⟩
  · rintro ⟨hk, d, hd⟩
    obtain ⟨p, hp⟩ := pkg_exists (ct := q.content) hk hd
    exact ⟨p, (fromStream_ok_iff _ _ _).2 ⟨q.f, q.cls, q.hdr, q.content, d, rfl, h.1, h.2, hd, hp⟩⟩

theorem understood_id {q : RespFrame} (h : q.Fits) {p : Pkg} (hp : fromStream .boltResponse q.bytes = .ok p) :
    p.requestId = .int q.f.requestId := by
  rw [fromStream_ok_iff] at hp
  obtain ⟨f, cn, hb, ct, d, e, h1, h2, h3, h4⟩ := hp
  obtain ⟨rfl, rfl, rfl, rfl⟩ := frame_inj e h.1 h1 h.2 h2
  exact h4.requestId

/-! ## The log of a part of a schedule -/

theorem log_unique {v : PyVer} {n : Nat} {evs : List AEv} {ps ps' : List Pkg} (h : Log v n evs ps) (h' : Log v n evs ps') :
    ps' = ps := by
  suffices hs : ∀ evs ps, Log v n evs ps → ∀ evs' ps', Log v n evs' ps' → evs' = evs → ps' = ps from
    hs evs ps h evs ps' h' rfl
  clear h h'
  intro evs ps h
  induction h with
  | nil =>
    intro evs' ps' h' e
    cases h' with
    | nil => rfl
    | pkg _ _ => simp at e
    | other _ _ => simp at e
  | @pkg evs ps p h hp ih =>
    intro evs' ps' h' e
    cases h' with
    | nil => simp at e
    | @pkg evs2 ps2 p2 h2 hp2 =>
      have e := (List.append_inj' e rfl).1
      subst e
      rw [ih _ _ h2 rfl, processes_det hp hp2]
    | @other evs2 ps2 e2 h2 hno =>
      obtain ⟨e, e'⟩ := List.append_inj' e rfl
      subst e
      simp only [List.cons.injEq, and_true] at e'
      exact absurd hp (hno e' p)
  | @other evs ps e2 h hno ih =>
    intro evs' ps' h' e
    cases h' with
    | nil => simp at e
    | @pkg evs2 ps2 p2 h2 hp2 =>
      obtain ⟨e, e'⟩ := List.append_inj' e rfl
      subst e
      simp only [List.cons.injEq, and_true] at e'
      exact absurd hp2 (hno e'.symm p2)
    | @other evs2 ps2 e2 h2 hno =>
      have e := (List.append_inj' e rfl).1
      subst e
      exact ih _ _ h2 rfl

/-- what is processed later is appended to the log -/
theorem log_more {v : PyVer} {n : Nat} {pre : List AEv} {ps : List Pkg} (h : Log v n pre ps) (post : List AEv) :
    ∃ more, Log v n (pre ++ post) (ps ++ more) ∧
      (∀ p ∈ more, ∃ q rest, post = q ++ .recv n :: rest ∧ Processes (arun v (pre ++ q)) n p) ∧
      ∀ q rest p, post = q ++ .recv n :: rest → Processes (arun v (pre ++ q)) n p → p ∈ more := by
  induction post using snoc_induct with
  | nil => exact ⟨[], by simpa using h, by simp, by simp⟩
  | snoc post e ih =>
    obtain ⟨more, h1, h2, h3⟩ := ih
    have old : ∀ p ∈ more, ∃ q rest, post ++ [e] = q ++ .recv n :: rest ∧ Processes (arun v (pre ++ q)) n p := by
      intro p hp
      obtain ⟨q, rest, rfl, h⟩ := h2 p hp
      exact ⟨q, rest ++ [e], by simp, h⟩
    have split : ∀ q rest, post ++ [e] = q ++ .recv n :: rest →
        (q = post ∧ e = .recv n) ∨ ∃ rest', post = q ++ .recv n :: rest' := by
      intro q rest hq
      rcases List.eq_nil_or_concat rest with rfl | ⟨r, x, rfl⟩
      · obtain ⟨a, b⟩ := List.append_inj' hq rfl
        exact .inl ⟨a.symm, by simpa using b⟩
      · refine .inr ⟨r, ?_⟩
        have : post ++ [e] = (q ++ .recv n :: r) ++ [x] := by rw [hq]; simp
        exact (List.append_inj' this rfl).1
    by_cases he : e = .recv n ∧ ∃ p, Processes (arun v (pre ++ post)) n p
    · obtain ⟨rfl, p, hp⟩ := he
      refine ⟨more ++ [p], by rw [← List.append_assoc, ← List.append_assoc]; exact .pkg h1 hp, ?_, ?_⟩
      · intro p' hp'
        rcases List.mem_append.1 hp' with hp' | hp'
        · exact old p' hp'
        · cases List.mem_singleton.1 hp'
          exact ⟨post, [], rfl, hp⟩
      · intro q rest p' hq hp'
        rcases split q rest hq with ⟨rfl, -⟩ | ⟨rest', hr⟩
        · rw [processes_det hp hp']; simp
        · exact List.mem_append_left _ (h3 q rest' p' hr hp')
    · refine ⟨more, by rw [← List.append_assoc]; exact .other h1 fun h1 p hp => he ⟨h1, p, hp⟩, old, ?_⟩
      intro q rest p' hq hp'
      rcases split q rest hq with ⟨rfl, h4⟩ | ⟨rest', hr⟩
      · exact absurd ⟨h4, p', hp'⟩ he
      · exact h3 q rest' p' hr hp'

theorem respFrame_unit {q : RespFrame} (h : q.Fits) : RespUnit q.bytes := by
  have := declaredLength_frame false q.f q.cls q.hdr q.content h.2 []
  rw [List.append_nil] at this
  refine ⟨?_, this.symm⟩
  show 20 ≤ (frame false q.f q.cls q.hdr q.content).length
  rw [frame_length]
  simp
  omega

/-! ## C174 -/

/-- C174 as listed: a call that waits can go on once a frame with its id has arrived and been read on a connection that
is all right. -/
def C174_full : Prop :=
  ∀ (v : PyVer) (pre post : List AEv) (i ev n : Nat) (c c' : ACall) (k k' : AConn) (us : List Bytes) (qs : List RespFrame),
    DistinctIds (pre ++ post) → (arun v pre).calls[i]? = some c → c.pc = .waiting ev →
    (arun v pre).conns[n]? = some k → Cut k.recvd us [] → (∀ q ∈ qs, q.Fits) →
    (arun v (pre ++ post)).conns[n]? = some k' → k'.recvd = k.recvd ++ (qs.map RespFrame.bytes).flatten →
    Settled (arun v (pre ++ post)) n → k'.cancelled = false → k'.lost = false →
    ∀ q ∈ qs, .int q.f.requestId = c.req.requestId →
    (arun v (pre ++ post)).calls[i]? = some c' → c'.pc = .waiting ev → c'.set = true

/-- a response with a status that constants.py does not list -/
def exUnknownStatus (id : Int) : RespFrame := ⟨⟨1, 0, 2, 1, id, 11, 99⟩, respClass, [], [5]⟩

theorem exUnknownStatus_fits : (exUnknownStatus 1).Fits :=
  ⟨⟨by decide, by decide, by decide, by decide, by decide, by decide, by decide⟩, by decide⟩

theorem exUnknownStatus_not : ¬ (exUnknownStatus 1).Understood := fun h => absurd (h.1.2.2.2.2.2 rfl) (by decide)

def exUnknownEvs : List AEv := [.data 0 (exUnknownStatus 1).bytes, .recv 0, .recv 0, .recv 0]

set_option maxRecDepth 20000 in
theorem C174_violated : ¬ C174_full := by
  intro h
  have := h .from38 (exToWait (exAReq 1)) exUnknownEvs 0 0 0 _ _ _ _ [] [exUnknownStatus 1] (by decide +kernel) rfl
    (by decide +kernel) rfl
    ⟨by simp, by decide +kernel, by
      intro u t e hu
      have := hu.1
      rw [List.nil_eq_append_iff] at e
      rw [e.1] at this
      simp at this⟩
    (by intro q hq; rw [List.mem_singleton.1 hq]; exact exUnknownStatus_fits) rfl (by decide +kernel)
    ⟨_, rfl, by decide +kernel, by decide +kernel⟩ (by decide +kernel) (by decide +kernel) (exUnknownStatus 1)
    (List.mem_singleton.2 rfl) (by decide +kernel) rfl (by decide +kernel)
  revert this
  decide +kernel

theorem cut_append {bs : Bytes} {us : List Bytes} {qs : List RespFrame} (h : Cut bs us []) (hq : ∀ q ∈ qs, q.Fits) :
    Cut (bs ++ (qs.map RespFrame.bytes).flatten) (us ++ qs.map RespFrame.bytes) [] := by
  obtain ⟨h1, h2, h3⟩ := h
  refine ⟨?_, by rw [h2]; simp, h3⟩
  intro u hu
  rcases List.mem_append.1 hu with hu | hu
  · exact h1 u hu
  · obtain ⟨q, hqm, rfl⟩ := List.mem_map.1 hu
    exact respFrame_unit (hq q hqm)

/-- C174, what holds: the call can go on if the frame can be decoded, whatever else was received before and after it,
frames that cannot be decoded among it. Missing: the frames that cannot be decoded; see `C174_waits`. -/
theorem C174_understood_partial (v : PyVer) (pre post : List AEv) (i ev n : Nat) (c c' : ACall) (k k' : AConn)
    (us : List Bytes) (qs : List RespFrame) (hd : DistinctIds (pre ++ post)) (hc : (arun v pre).calls[i]? = some c)
    (hw : c.pc = .waiting ev) (hk : (arun v pre).conns[n]? = some k) (hcut : Cut k.recvd us []) (hf : ∀ q ∈ qs, q.Fits)
    (hk' : (arun v (pre ++ post)).conns[n]? = some k') (hrec : k'.recvd = k.recvd ++ (qs.map RespFrame.bytes).flatten)
    (hs : Settled (arun v (pre ++ post)) n) (hcan : k'.cancelled = false) (hlost : k'.lost = false)
    (q : RespFrame) (hq : q ∈ qs) (hu : q.Understood) (hid : .int q.f.requestId = c.req.requestId)
    (hc' : (arun v (pre ++ post)).calls[i]? = some c') (hw' : c'.pc = .waiting ev) : c'.set = true := by
  obtain ⟨ps, us0, rest0, hlog, -, hcut0, -, hpre, -⟩ := C98_frames v n pre k hk
  obtain ⟨ps', us', rest', hlog', -, hcut', -, -, hall⟩ := C98_frames v n (pre ++ post) k' hk'
  have hall := hall hs hcan hlost
  rw [(cut_unique hcut0 hcut).1] at hpre
  have hca := cut_append hcut hf
  rw [← hrec] at hca
  rw [(cut_unique hcut' hca).1] at hall
  obtain ⟨more, hm, hpost, -⟩ := log_more hlog post
  have hmore := log_unique hlog' hm
  obtain ⟨p, hp⟩ := (understood_iff (hf q hq)).2 hu
  have hpq : p ∈ packages (qs.map RespFrame.bytes) := by
    unfold packages
    rw [List.mem_filterMap]
    exact ⟨q.bytes, List.mem_map_of_mem hq, by rw [hp]; rfl⟩
  have hmem : p ∈ more := by
    obtain ⟨t, ht⟩ := hpre
    have e : ps ++ more = ps ++ (t ++ packages (qs.map RespFrame.bytes)) := by
      rw [hmore, hall, ← List.append_assoc, ht]
      unfold packages
      rw [List.filterMap_append]
    rw [List.append_cancel_left e]
    exact List.mem_append_right _ hpq
  obtain ⟨a, b, rfl, hpr⟩ := hpost p hmem
  have hd0 := hd
  rw [← List.append_assoc] at hd0 hc'
  obtain ⟨d, d1, d2, d3, -, -⟩ := call_persist v pre a hc
  obtain ⟨d', e1, e2, -, e4, e5⟩ := call_persist v (pre ++ a) (.recv n :: b) d1
  rw [e1] at hc'
  cases hc'
  have hnew : d.pc ≠ .new := d3 (by rw [hw]; nofun)
  cases hset : d.set with
  | true => exact e4 hset
  | false =>
    have hnd : d.pc.isDone = false := by
      cases hx : d.pc with
      | done r => rw [e5 r hx] at hw'; cases hw'
      | _ => rfl
    have hent := pending_entry (arun_inv v (pre ++ a) hd0.prefix) d1 hnew hnd hset
    rw [d2, ← hid, ← understood_id (hf q hq) hp] at hent
    obtain ⟨k2, hk2⟩ := recv_pending hpr hent
    have hs : (arun v (pre ++ a ++ [.recv n])).calls[i]? = some { d with set := true } := by
      rw [arun_snoc]
      show ((arun v (pre ++ a)).recv n).calls[i]? = _
      rw [hk2]
      exact modify_self d1
    obtain ⟨f, g1, -, -, g4, -⟩ := call_persist v (pre ++ a ++ [.recv n]) b hs
    rw [List.append_assoc, List.singleton_append, e1] at g1
    cases g1
    exact g4 rfl

/-- What happens otherwise, always: a call waits for ever if the frames with its id, on all connections, cannot be decoded
and it is not cancelled. -/
theorem C174_waits (v : PyVer) (pre post : List AEv) (hd : DistinctIds (pre ++ post)) (i ev : Nat) (c : ACall)
    (hc : (arun v pre).calls[i]? = some c) (hw : c.pc = .waiting ev) (hset : c.set = false) (hcan : .cancel i ∉ post)
    (qs : Nat → List RespFrame) (rest : Nat → Bytes) (hf : ∀ n, ∀ q ∈ qs n, q.Fits)
    (hcut : ∀ n k, (arun v (pre ++ post)).conns[n]? = some k → Cut k.recvd ((qs n).map RespFrame.bytes) (rest n))
    (hno : ∀ n, ∀ q ∈ qs n, .int q.f.requestId = c.req.requestId → ¬ q.Understood) :
    ∃ c', (arun v (pre ++ post)).calls[i]? = some c' ∧ c'.pc = .waiting ev ∧ c'.set = false ∧ c'.req = c.req := by
  refine C63_waits v pre post hd i ev c hc hw hset hcan ?_
  intro a m b hab p hp hid
  subst hab
  obtain ⟨ps, hlog⟩ := log_exists v m (pre ++ a)
  obtain ⟨more, hm, -, hin⟩ := log_more hlog (.recv m :: b)
  have hmem := hin [] b p rfl (by simpa using hp)
  rw [List.append_assoc] at hm
  cases hk : (arun v (pre ++ (a ++ .recv m :: b))).conns[m]? with
  | none =>
    have := (log_inv hm).2 hk
    rw [List.append_eq_nil_iff] at this
    rw [this.2] at hmem
    cases hmem
  | some k =>
    obtain ⟨ps', us, rest', -, huniq, hcut', -, hpre, -⟩ := C98_frames v m _ k hk
    rw [(cut_unique hcut' (hcut m k hk)).1, ← huniq _ hm] at hpre
    obtain ⟨u, hu, hd⟩ := mem_packages (hpre.subset (List.mem_append_right _ hmem))
    obtain ⟨q, hq, rfl⟩ := List.mem_map.1 hu
    exact hno m q hq (by rw [← understood_id (hf m q hq) hd]; exact hid) ((understood_iff (hf m q hq)).1 ⟨p, hd⟩)

/-- Nobody else notices: what is processed on a connection is what the frames that can be decoded hold, in order, as if the
others had not been sent. -/
theorem C174_skipped (v : PyVer) (n : Nat) (evs : List AEv) (k : AConn) (hk : (arun v evs).conns[n]? = some k)
    (qs : List RespFrame) (rest : Bytes) (good : RespFrame → Bool) (hgood : ∀ q ∈ qs, good q = true ↔ q.Understood)
    (hf : ∀ q ∈ qs, q.Fits) (hcut : Cut k.recvd (qs.map RespFrame.bytes) rest) (hs : Settled (arun v evs) n)
    (hcan : k.cancelled = false) (hlost : k.lost = false) (ps : List Pkg) (hl : Log v n evs ps) :
    ps.map (fun p => (.ok p : Except PyExc Pkg)) =
      (qs.filter good).map fun q => fromStream .boltResponse q.bytes := by
  obtain ⟨ps', us, rest', -, huniq, hcut', -, -, hall⟩ := C98_frames v n evs k hk
  rw [huniq _ hl, hall hs hcan hlost, (cut_unique hcut' hcut).1]
  clear hcut hcut' hall huniq hl
  induction qs with
  | nil => rfl
  | cons q qs ih =>
    have ih := ih (fun q hq => hgood q (by simp [hq])) (fun q hq => hf q (by simp [hq]))
    have h1 := hgood q (by simp)
    have h2 := understood_iff (hf q (by simp))
    unfold packages at ih ⊢
    rw [List.map_cons, List.filterMap_cons]
    cases hd : fromStream .boltResponse q.bytes with
    | ok p =>
      rw [List.filter_cons_of_pos (h1.2 (h2.1 ⟨p, hd⟩)), List.map_cons, hd]
      exact congrArg (Except.ok p :: ·) ih
    | error e =>
      rw [List.filter_cons_of_neg (fun hg => by
        obtain ⟨p, hp⟩ := h2.2 (h1.1 hg)
        rw [hd] at hp
        cases hp)]
      exact ih

/-- The synchronous client tells its caller: a frame that cannot be decoded makes every call that reads it whole end with
an exception, however the bytes are cut into segments. -/
theorem C174_sync (id : Int) (q : RespFrame) (rest : Bytes) (hf : q.Fits) (hu : ¬ q.Understood) :
    ∃ e, (∀ ns : List Nat, q.bytes.length ≤ ns.length → (recvRun id (q.bytes ++ rest) (chunked ns)).out = some (.error e)) ∧
      ∀ ns : List Nat, (recvRun id (q.bytes ++ rest) (chunked ns)).out = none ∨
        (recvRun id (q.bytes ++ rest) (chunked ns)).out = some (.error e) := by
  have hL : Spec.declaredLength false (q.bytes ++ rest) = q.bytes.length := declaredLength_frame false _ _ _ _ hf.2 rest
  have hge := declaredLength_ge (q.bytes ++ rest)
  have hlen : (q.bytes ++ rest).length = q.bytes.length + rest.length := List.length_append
  cases hd : fromStream .boltResponse q.bytes with
  | ok p => exact absurd ((understood_iff hf).1 ⟨p, hd⟩) hu
  | error e =>
    have hout : Spec.responseOutcome id (q.bytes ++ rest) = some (.error e) := by
      unfold Spec.responseOutcome
      rw [if_neg (by omega), if_neg (by omega), hL, List.take_left' rfl, hd]
    refine ⟨e, fun ns hn => ?_, fun ns => ?_⟩
    · rw [← hout]
      exact (C49_segmentation id (q.bytes ++ rest) ns []).2.2.1 (by rw [hout]; nofun) (by rw [hL]; exact hn)
    · rw [← hout]
      exact (C49_segmentation id (q.bytes ++ rest) ns []).2.1

set_option maxRecDepth 40000 in
/-- two calls wait; the response to the first has an unknown status, that to the second arrives behind it: the second call
can go on, the first waits -/
example : let pre := exToWait (exAReq 1)
    let evs := pre ++ [.call (exAReq 2), .start 1 exAddr, .lock 1, .drained 1 true, .drained 1 true,
      .data 0 ((exUnknownStatus 1).bytes ++ reply 2 0 [22]), .recv 0, .recv 0, .recv 0, .recv 0, .recv 0]
    (exUnknownStatus 1).Fits ∧ ¬ (exUnknownStatus 1).Understood ∧ DistinctIds evs ∧ Settled (arun .from38 evs) 0 ∧
    ((arun .from38 evs).calls.map fun c => (c.pc.isDone, c.set)) = [(false, false), (false, true)] :=
  ⟨exUnknownStatus_fits, exUnknownStatus_not, by decide +kernel, ⟨_, rfl, by decide +kernel, by decide +kernel⟩,
    by decide +kernel⟩

end Bolt
