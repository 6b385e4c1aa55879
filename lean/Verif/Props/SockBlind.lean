import Verif.Props.SockListener
/-!
# C202: which fields of a request the socket listener takes notice of
-/
namespace Bolt
open Spec

namespace Spec

/-- The places in a request of the fields protocol code, type of the call, version, codec and timeout (the fixed part
is made of 1+1+2+1+4+1+4+2+2+4 bytes). -/
def Unread (i : Nat) : Prop := i = 0 ∨ i = 1 ∨ i = 4 ∨ (9 ≤ i ∧ i < 14)

instance (i : Nat) : Decidable (Unread i) := by unfold Unread; infer_instance

/-- bytes that are at place `k` and following of a request, with zeros in these fields -/
def blankFrom : Nat → Bytes → Bytes
  | _, [] => []
  | k, b :: bs => (if Unread k then 0 else b) :: blankFrom (k + 1) bs

/-- a schedule with zeros in these fields of the request the connection receives; `k` bytes came before -/
def blankEvs : Nat → List SEv → List SEv
  | _, [] => []
  | k, .data bs :: evs => .data (blankFrom k bs) :: blankEvs (k + bs.length) evs
  | k, e :: evs => e :: blankEvs k evs

end Spec

/-! ## blanks -/

theorem blankFrom_append (k : Nat) (a b : Bytes) : blankFrom k (a ++ b) = blankFrom k a ++ blankFrom (k + a.length) b := by
  induction a generalizing k with
  | nil => simp [blankFrom]
  | cons x a ih =>
    simp only [List.cons_append, blankFrom, List.length_cons, ih]
    rw [show k + 1 + a.length = k + (a.length + 1) by omega]

theorem blankFrom_length (k : Nat) (a : Bytes) : (blankFrom k a).length = a.length := by
  induction a generalizing k with
  | nil => rfl
  | cons x a ih => simp [blankFrom, ih]

theorem blankFrom_late {k : Nat} (h : 14 ≤ k) (a : Bytes) : blankFrom k a = a := by
  induction a generalizing k with
  | nil => rfl
  | cons x a ih =>
    have : ¬ Unread k := by unfold Unread; omega
    simp only [blankFrom, if_neg this, ih (show 14 ≤ k + 1 by omega)]

theorem blankFrom_take (k n : Nat) (a : Bytes) : (blankFrom k a).take n = blankFrom k (a.take n) := by
  induction a generalizing k n with
  | nil => simp [blankFrom]
  | cons x a ih =>
    cases n with
    | zero => simp [blankFrom]
    | succ n => simp only [blankFrom, List.take_succ_cons, ih]

theorem blankFrom_drop (k n : Nat) (a : Bytes) : (blankFrom k a).drop n = blankFrom (k + n) (a.drop n) := by
  induction a generalizing k n with
  | nil => simp [blankFrom]
  | cons x a ih =>
    cases n with
    | zero => simp [blankFrom]
    | succ n =>
      simp only [blankFrom, List.drop_succ_cons, ih]
      rw [show k + 1 + n = k + (n + 1) by omega]

theorem blank_fixedPart (f : Fields) (cl hl nl : Nat) :
    blankFrom 0 (fixedPart true f cl hl nl) =
      fixedPart true { f with proto := 0, ptype := 0, ver2 := 0, codec := 0, seventh := 0 } cl hl nl := by
  have z1 : s1 0 = [0] := by decide
  have z4 : s4 0 = [0, 0, 0, 0] := by decide
  unfold fixedPart
  dsimp only
  rw [z1, if_pos rfl, z4]
  unfold s1 s2 s4 be2 be4
  simp [blankFrom, Unread]

theorem blank_reqHdr (bs : Bytes) (h : bs.length = 22) :
    ∃ hd, reqHdr bs = .ok hd ∧ reqHdr (blankFrom 0 bs) = .ok { hd with ptype := 0, timeout := 0 } := by
  obtain ⟨f, cl, hl, nl, hf, h1, h2, h3, e, hr⟩ := reqHdr_total bs h
  refine ⟨_, hr, ?_⟩
  rw [e, blank_fixedPart, reqHdr_fixed _ cl hl nl _ h1 h2 h3]
  refine { proto := ?_, ptype := ?_, cmdcode := hf.cmdcode, ver2 := ?_, requestId := hf.requestId, codec := ?_,
           seventh := ?_ } <;> (dsimp only; decide)

/-! ## the two runs -/

/-- the phase with zeros in the header that was read -/
def blankPhase : SPhase → SPhase
  | .cls h => .cls { h with ptype := 0, timeout := 0 }
  | .shdr h cn => .shdr { h with ptype := 0, timeout := 0 } cn
  | .body h cn d => .body { h with ptype := 0, timeout := 0 } cn d
  | x => x

/-- the state with zeros in these fields; `p` bytes were read before those in `acc` -/
def blankSt (r : Bytes) (p : Nat) (s : SSt) : SSt :=
  { s with recvd := r, acc := blankFrom p s.acc, buf := blankFrom (p + s.acc.length) s.buf, phase := blankPhase s.phase }

/-- the states of a run and of the one with zeros, after `n` bytes -/
structure Twin (n : Nat) (s s' : SSt) (p : Nat) : Prop where
  eq : ∃ r, s' = blankSt r p s
  count : s.eof = false → p + s.acc.length + s.buf.length = n
  start : s.phase = .hdr → p = 0
  later : s.phase ≠ .hdr → s.phase ≠ .done → 22 ≤ p
  small : s.phase = .hdr → s.acc.length < 22

theorem blank_finish (r : Bytes) (p : Nat) (s : SSt) : (blankSt r p s).finish = blankSt r p s.finish := rfl

theorem blank_send (r : Bytes) (p : Nat) (s : SSt) (m : Except PyExc Bytes) :
    (blankSt r p s).send m = blankSt r p (s.send m) := by
  unfold SSt.send
  cases m with
  | error e => rfl
  | ok bs =>
    dsimp only
    rw [show (blankSt r p s).reset = s.reset from rfl]
    split <;> rfl

theorem send_same (s : SSt) (m : Except PyExc Bytes) :
    (s.send m).phase = .done ∧ (s.send m).acc = s.acc ∧ (s.send m).buf = s.buf ∧ (s.send m).eof = s.eof := by
  unfold SSt.send
  cases m with
  | error e => exact ⟨rfl, rfl, rfl, rfl⟩
  | ok bs => dsimp only; split <;> exact ⟨rfl, rfl, rfl, rfl⟩

theorem blank_serve (svc : Services) (r : Bytes) (p : Nat) (s : SSt) (fresh : PyStr) (h : ReqHdr) (cn : Bytes)
    (d : PyDict PyStr PyStr) (body : Bytes) :
    (blankSt r p s).serve svc fresh { h with ptype := 0, timeout := 0 } cn d body = blankSt r p (s.serve svc fresh h cn d body) := by
  unfold SSt.serve
  dsimp only
  split
  · exact blank_send ..
  split
  · rfl
  split
  · rfl
  cases serviceOf d with
  | none => exact blank_send ..
  | some sn =>
    cases methodOf d with
    | none => exact blank_send ..
    | some mn =>
      dsimp only
      rw [show (blankSt r p s).heap = s.heap from rfl]
      cases extract s.heap fresh d with
      | error e => rfl
      | ok hc =>
        obtain ⟨heap, ctx⟩ := hc
        dsimp only
        rw [show (blankSt r p s).reg = s.reg from rfl]
        cases findMethod svc s.reg heap ctx sn mn with
        | error e => rfl
        | ok func => rfl

theorem serve_same (svc : Services) (s : SSt) (fresh : PyStr) (h : ReqHdr) (cn : Bytes) (d : PyDict PyStr PyStr) (body : Bytes) :
    let t := s.serve svc fresh h cn d body
    t.acc = s.acc ∧ t.buf = s.buf ∧ t.eof = s.eof ∧ (t.phase = .done ∨ ∃ id, t.phase = .calling id) := by
  have hs : ∀ m, (s.send m).acc = s.acc ∧ (s.send m).buf = s.buf ∧ (s.send m).eof = s.eof ∧
      ((s.send m).phase = .done ∨ ∃ id, (s.send m).phase = .calling id) := fun m =>
    ⟨(send_same s m).2.1, (send_same s m).2.2.1, (send_same s m).2.2.2, .inl (send_same s m).1⟩
  dsimp only
  unfold SSt.serve
  split
  · exact hs _
  split
  · exact ⟨rfl, rfl, rfl, .inl rfl⟩
  split
  · exact ⟨rfl, rfl, rfl, .inl rfl⟩
  cases serviceOf d with
  | none => exact hs _
  | some sn =>
    cases methodOf d with
    | none => exact hs _
    | some mn =>
      dsimp only
      cases extract s.heap fresh d with
      | error e => exact ⟨rfl, rfl, rfl, .inl rfl⟩
      | ok hc =>
        obtain ⟨heap, ctx⟩ := hc
        dsimp only
        cases findMethod svc s.reg heap ctx sn mn with
        | error e => exact ⟨rfl, rfl, rfl, .inl rfl⟩
        | ok func => exact ⟨rfl, rfl, rfl, .inr ⟨_, rfl⟩⟩

/-- one turn of the loop of `_readexactly` in both runs -/
theorem twin_read {n p m : Nat} {s s' : SSt} (ht : Twin n s s' p) (k k' : SSt → Bytes → SSt) (hm : s.phase = .hdr → m = 22)
    (hk : ∀ (t : SSt) (b r : Bytes), (s.phase = .hdr → b.length = 22) → t.acc = [] → t.phase = s.phase →
      (t.eof = false → p + b.length + t.buf.length = n) →
      ∃ q, Twin n (k t b) (k' (blankSt r (p + b.length) t) (blankFrom p b)) q) :
    ∃ q, Twin n (s.readexactly m k) (s'.readexactly m k') q := by
  obtain ⟨⟨r, rfl⟩, hc, hs, hl, ha⟩ := ht
  unfold SSt.readexactly
  have e1 : (blankSt r p s).acc = blankFrom p s.acc := rfl
  have e2 : (blankSt r p s).buf = blankFrom (p + s.acc.length) s.buf := rfl
  have e3 : (blankSt r p s).reset = s.reset := rfl
  have e4 : (blankSt r p s).eof = s.eof := rfl
  dsimp only
  rw [e1, e2, e3, e4, blankFrom_length, blankFrom_length]
  split
  · split
    · exact ⟨p, ⟨r, rfl⟩, hc, (fun h => by cases h), (fun _ h => absurd rfl h), (fun h => by cases h)⟩
    · have ea : blankFrom p s.acc ++ (blankFrom (p + s.acc.length) s.buf).take (m - s.acc.length) =
          blankFrom p (s.acc ++ s.buf.take (m - s.acc.length)) := by rw [blankFrom_take, blankFrom_append]
      have ed : (blankFrom (p + s.acc.length) s.buf).drop (m - s.acc.length) =
          blankFrom (p + s.acc.length + (m - s.acc.length)) (s.buf.drop (m - s.acc.length)) := blankFrom_drop ..
      have hlen : (s.acc ++ s.buf.take (m - s.acc.length)).length = s.acc.length + min (m - s.acc.length) s.buf.length := by
        simp
      have hdl : (s.buf.drop (m - s.acc.length)).length = s.buf.length - (m - s.acc.length) := List.length_drop
      split
      · rw [ea, blankFrom_length]
        split
        · next hlt =>
          rw [hlen] at hlt
          refine ⟨p, ⟨r, ?_⟩, fun he => ?_, hs, hl, fun h => by have := hm h; dsimp only; rw [hlen]; omega⟩
          · simp only [blankSt, SSt.mk.injEq, true_and, and_true]
            have hb : s.buf.drop (m - s.acc.length) = [] := List.drop_eq_nil_of_le (by omega)
            rw [ed, hb]
            rfl
          · have := hc he
            dsimp only
            rw [hlen, hdl]
            omega
        · next hlt =>
          rw [hlen] at hlt
          have hbl : (s.acc ++ s.buf.take (m - s.acc.length)).length = m := by rw [hlen]; omega
          have := hk { s with acc := [], buf := s.buf.drop (m - s.acc.length) } (s.acc ++ s.buf.take (m - s.acc.length)) r
            (fun h => by rw [hbl, hm h]) rfl rfl (fun he => by have := hc he; rw [hbl]; dsimp only; rw [hdl]; omega)
          have e : blankSt r (p + (s.acc ++ s.buf.take (m - s.acc.length)).length)
              { s with acc := [], buf := s.buf.drop (m - s.acc.length) } =
              { blankSt r p s with acc := [], buf := (blankFrom (p + s.acc.length) s.buf).drop (m - s.acc.length) } := by
            simp only [blankSt, SSt.mk.injEq, true_and, and_true, blankFrom, List.length_nil, Nat.add_zero]
            rw [ed, hbl, show p + s.acc.length + (m - s.acc.length) = p + m by omega]
          rw [e] at this
          exact this
      · exact ⟨p, ⟨r, rfl⟩, hc, hs, hl, ha⟩
  · next hge =>
    have := hk { s with acc := [] } s.acc r (fun h => by have := hm h; have := ha h; omega) rfl rfl (fun he => hc he)
    have e : blankSt r (p + s.acc.length) { s with acc := [] } = { blankSt r p s with acc := [] } := by
      simp only [blankSt, blankFrom, List.length_nil, Nat.add_zero]
    rw [e] at this
    exact this

theorem twin_handler (svc : Services) {n p : Nat} {s s' : SSt} (ht : Twin n s s' p) (fresh : PyStr) :
    ∃ q, Twin n (s.handler svc fresh) (s'.handler svc fresh) q := by
  have ht' := ht
  obtain ⟨⟨r, rfl⟩, hc, hs, hl, ha⟩ := ht'
  have ep : (blankSt r p s).phase = blankPhase s.phase := rfl
  unfold SSt.handler
  rw [ep]
  cases hph : s.phase with
  | hdr =>
    simp only [blankPhase]
    have hp := hs hph
    subst hp
    refine twin_read ht _ _ (fun _ => by decide) fun t b r hb hta htp hcnt => ?_
    have hb := hb hph
    obtain ⟨hd, h1, h2⟩ := blank_reqHdr b hb
    rw [h1, h2]
    refine ⟨0 + b.length, ⟨r, rfl⟩, fun he => ?_, (fun h => by cases h), fun _ _ => by omega, (fun h => by cases h)⟩
    rw [show ({ t with phase := SPhase.cls hd } : SSt).acc = [] from hta]
    exact hcnt he
  | cls h =>
    simp only [blankPhase]
    have hp := hl (by rw [hph]; simp) (by rw [hph]; simp)
    refine twin_read ht _ _ (fun h => by rw [hph] at h; cases h) fun t b r hb hta htp hcnt => ?_
    rw [blankFrom_late (by omega)]
    refine ⟨p + b.length, ⟨r, rfl⟩, fun he => ?_, (fun h => by cases h), fun _ _ => by omega, (fun h => by cases h)⟩
    rw [show ({ t with phase := SPhase.shdr h b } : SSt).acc = [] from hta]
    exact hcnt he
  | shdr h cn =>
    simp only [blankPhase]
    have hp := hl (by rw [hph]; simp) (by rw [hph]; simp)
    refine twin_read ht _ _ (fun h => by rw [hph] at h; cases h) fun t b r hb hta htp hcnt => ?_
    rw [blankFrom_late (by omega)]
    cases headerFromBytes b with
    | error e =>
      refine ⟨p + b.length, ⟨r, rfl⟩, fun he => ?_, (fun h => by cases h), fun _ h => absurd rfl h, (fun h => by cases h)⟩
      rw [show t.finish.acc = [] from hta]
      exact hcnt he
    | ok d =>
      refine ⟨p + b.length, ⟨r, rfl⟩, fun he => ?_, (fun h => by cases h), fun _ _ => by omega, (fun h => by cases h)⟩
      rw [show ({ t with phase := SPhase.body h cn d } : SSt).acc = [] from hta]
      exact hcnt he
  | body h cn d =>
    simp only [blankPhase]
    have hp := hl (by rw [hph]; simp) (by rw [hph]; simp)
    refine twin_read ht _ _ (fun h => by rw [hph] at h; cases h) fun t b r hb hta htp hcnt => ?_
    rw [blankFrom_late (by omega), blank_serve]
    obtain ⟨h1, h2, h3, h4⟩ := serve_same svc t fresh h cn d b
    refine ⟨p + b.length, ⟨r, rfl⟩, fun he => ?_, fun e => ?_, fun _ _ => by omega, fun e => ?_⟩
    · rw [h1, h2, hta]
      exact hcnt (h3 ▸ he)
    · rcases h4 with h4 | ⟨id, h4⟩ <;> (rw [h4] at e; cases e)
    · rcases h4 with h4 | ⟨id, h4⟩ <;> (rw [h4] at e; cases e)
  | calling id => exact ⟨p, ht⟩
  | done => exact ⟨p, ht⟩

/-- an event with zeros in these fields -/
def blankEv (k : Nat) : SEv → SEv
  | .data bs => .data (blankFrom k bs)
  | e => e

/-- how many bytes an event brings -/
def evLen : SEv → Nat
  | .data bs => bs.length
  | _ => 0

theorem blankEvs_cons (k : Nat) (e : SEv) (evs : List SEv) : blankEvs k (e :: evs) = blankEv k e :: blankEvs (k + evLen e) evs := by
  cases e <;> rfl

theorem twin_step (svc : Services) {n p : Nat} {s s' : SSt} (ht : Twin n s s' p) (e : SEv) :
    ∃ q, Twin (n + evLen e) (sstep svc s e) (sstep svc s' (blankEv n e)) q := by
  cases e with
  | handler fresh => exact twin_handler svc ht fresh
  | data bs =>
    obtain ⟨⟨r, rfl⟩, hc, hs, hl, ha⟩ := ht
    simp only [sstep, blankEv, evLen]
    rw [show (blankSt r p s).eof = s.eof from rfl]
    by_cases he : s.eof = true
    · rw [if_pos he, if_pos he]
      exact ⟨p, ⟨r, rfl⟩, (fun h => by rw [he] at h; cases h), hs, hl, ha⟩
    · rw [if_neg he, if_neg he]
      have hn := hc (by simpa using he)
      refine ⟨p, ⟨r ++ blankFrom n bs, ?_⟩, fun _ => ?_, hs, hl, ha⟩
      · simp only [blankSt, SSt.mk.injEq, true_and, and_true]
        rw [blankFrom_append, hn]
      · dsimp only
        rw [List.length_append]
        omega
  | eof =>
    obtain ⟨⟨r, rfl⟩, hc, hs, hl, ha⟩ := ht
    exact ⟨p, ⟨r, rfl⟩, (fun h => by cases h), hs, hl, ha⟩
  | reset =>
    obtain ⟨⟨r, rfl⟩, hc, hs, hl, ha⟩ := ht
    exact ⟨p, ⟨r, rfl⟩, hc, hs, hl, ha⟩
  | register g =>
    obtain ⟨⟨r, rfl⟩, hc, hs, hl, ha⟩ := ht
    exact ⟨p, ⟨r, rfl⟩, hc, hs, hl, ha⟩
  | finish o =>
    have ht' := ht
    obtain ⟨⟨r, rfl⟩, hc, hs, hl, ha⟩ := ht'
    simp only [sstep, blankEv, evLen, Nat.add_zero]
    rw [show (blankSt r p s).phase = blankPhase s.phase from rfl]
    cases hph : s.phase with
    | calling id =>
      simp only [blankPhase]
      cases o with
      | raised x =>
        exact ⟨p, ⟨r, by simp [blankSt, SSt.finish, hph, blankPhase]⟩, hc, (fun h => by cases h), (fun _ h => absurd rfl h), (fun h => by cases h)⟩
      | ret v =>
        dsimp only
        have e' := blank_send r p { s with result := some (Outcome.ret v), phase := SPhase.calling id } (resultMsg v id)
        obtain ⟨h1, h2, h3, h4⟩ := send_same { s with result := some (Outcome.ret v), phase := SPhase.calling id } (resultMsg v id)
        refine ⟨p, ⟨r, by rw [← hph] at e' ⊢; rw [← e']; simp [blankSt, hph, blankPhase]⟩, fun he => ?_, fun h => ?_, fun _ h => absurd h1 h, fun h => ?_⟩
        · rw [h2, h3]; exact hc (h4 ▸ he)
        · rw [h1] at h; cases h
        · rw [h1] at h; cases h
    | hdr => exact ⟨p, ht⟩
    | cls h => exact ⟨p, ht⟩
    | shdr h cn => exact ⟨p, ht⟩
    | body h cn d => exact ⟨p, ht⟩
    | done => exact ⟨p, ht⟩

theorem twin_run (svc : Services) (evs : List SEv) (n : Nat) (s s' : SSt) (p : Nat) (ht : Twin n s s' p) :
    ∃ m q, Twin m (evs.foldl (sstep svc) s) ((blankEvs n evs).foldl (sstep svc) s') q := by
  induction evs generalizing n s s' p with
  | nil => exact ⟨n, p, ht⟩
  | cons e evs ih =>
    rw [blankEvs_cons, List.foldl_cons, List.foldl_cons]
    obtain ⟨q, hq⟩ := twin_step svc ht e
    exact ih _ _ _ q hq

/-- C202. Zeros in the fields protocol code, type of the call, version, codec and timeout of a request change nothing: the same
method is called with the same arguments at the same moments, the same bytes are sent, the thread ends at the same moment. -/
theorem C202_zeros (svc : Services) (reg : Registry) (evs : List SEv) :
    let s := srun svc reg evs
    let s' := srun svc reg (blankEvs 0 evs)
    s'.calls = s.calls ∧ s'.out = s.out ∧ s'.result = s.result ∧ s'.heap = s.heap ∧ (s'.phase = .done ↔ s.phase = .done) ∧
      ∀ id, s'.phase = .calling id ↔ s.phase = .calling id := by
  obtain ⟨m, q, ⟨r, e⟩, -⟩ := twin_run svc evs 0 { reg := reg } { reg := reg } 0
    { eq := ⟨[], rfl⟩, count := fun _ => rfl, start := fun _ => rfl, later := fun h => absurd rfl h, small := fun _ => Nat.succ_pos _ }
  change srun svc reg (blankEvs 0 evs) = blankSt r q (srun svc reg evs) at e
  dsimp only
  rw [e]
  refine ⟨rfl, rfl, rfl, rfl, ?_, fun id => ?_⟩
  · change blankPhase (srun svc reg evs).phase = .done ↔ _
    cases (srun svc reg evs).phase <;> simp [blankPhase]
  · change blankPhase (srun svc reg evs).phase = .calling id ↔ _
    cases (srun svc reg evs).phase <;> simp [blankPhase]

/-- C202. Two peers that send the same bytes at the same moments, but for these five fields, cannot tell the difference: neither
the timeout of a call nor whether it is one-way means anything to the socket listener. -/
theorem C202_blind (svc : Services) (reg : Registry) (evs evs' : List SEv) (h : blankEvs 0 evs = blankEvs 0 evs') :
    let s := srun svc reg evs
    let s' := srun svc reg evs'
    s'.calls = s.calls ∧ s'.out = s.out ∧ s'.result = s.result ∧ s'.heap = s.heap ∧ (s'.phase = .done ↔ s.phase = .done) ∧
      ∀ id, s'.phase = .calling id ↔ s.phase = .calling id := by
  obtain ⟨a1, a2, a3, a4, a5, a6⟩ := C202_zeros svc reg evs
  obtain ⟨b1, b2, b3, b4, b5, b6⟩ := C202_zeros svc reg evs'
  rw [← h] at b1 b2 b3 b4 b5 b6
  exact ⟨b1.symm.trans a1, b2.symm.trans a2, b3.symm.trans a3, b4.symm.trans a4, b5.symm.trans a5,
    fun id => (b6 id).symm.trans (a6 id)⟩

set_option maxRecDepth 20000 in
/-- non-vacuity of `C202_blind`: a request, and the same as a one-way call with another timeout, which is executed and answered
as well -/
example : let bs := (exReq 3 [1]).bytes
    let bs' := (bs.set 1 2).set 12 7
    let rest : List SEv := [.handler [], .handler [], .handler [], .handler (py "t"), .finish (.ret (.bytes [7, 8]))]
    bs ≠ bs' ∧ blankEvs 0 (.data bs :: rest) = blankEvs 0 (.data bs' :: rest) ∧
      (srun exServices exReg (.data bs' :: rest)).out = [reply 3 0 [7, 8]] := by decide +kernel

end Bolt
