import Verif.Props.AioDial
import Verif.Lemmas.AioProgress
/-!
# C98: what the asyncio client reads depends on the bytes alone
-/
namespace Bolt
open Spec

/-! ## The specification -/

/-- `us` are the frames in `bs`, one after the other and each as long as it says; `rest` holds no complete one. -/
def Spec.Cut (bs : Bytes) (us : List Bytes) (rest : Bytes) : Prop :=
  (∀ u ∈ us, RespUnit u) ∧ bs = us.flatten ++ rest ∧ ∀ u t, rest = u ++ t → ¬ RespUnit u

/-- the packages in a list of frames; frames that cannot be decoded are left out -/
def Spec.packages (us : List Bytes) : List Pkg :=
  us.filterMap fun u => (fromStream .boltResponse u).toOption

/-- `ps` are the packages that the reading task of connection `n` processes along the schedule, in order. -/
inductive Spec.Log (v : PyVer) (n : Nat) : List AEv → List Pkg → Prop
  | nil : Log v n [] []
  | pkg {evs ps p} : Log v n evs ps → Processes (arun v evs) n p → Log v n (evs ++ [.recv n]) (ps ++ [p])
  | other {evs ps e} : Log v n evs ps → (e = .recv n → ∀ p, ¬ Processes (arun v evs) n p) → Log v n (evs ++ [e]) ps

/-! ## Cutting a stream -/

theorem unit_head {u u' t t' : Bytes} (h : RespUnit u) (h' : RespUnit u') (e : u ++ t = u' ++ t') : u = u' ∧ t = t' := by
  have e1 := respUnit_prefix u t h.1
  have e2 := respUnit_prefix u' t' h'.1
  rw [e, e2, ← h.2, ← h'.2] at e1
  exact List.append_inj e e1.symm

theorem cut_prefix : ∀ (us us' : List Bytes) (rest rest' : Bytes), (∀ u ∈ us, RespUnit u) →
    Cut (us.flatten ++ rest) us' rest' → us <+: us' := by
  intro us
  induction us with
  | nil => intro us' _ _ _ _; exact List.nil_prefix
  | cons u us ih =>
    intro us' rest rest' hu ⟨h1, h2, h3⟩
    cases us' with
    | nil => exact absurd (hu u (by simp)) (h3 u (us.flatten ++ rest) (by simpa using h2.symm))
    | cons u' us' =>
      simp only [List.flatten_cons, List.append_assoc] at h2
      obtain ⟨rfl, e⟩ := unit_head (hu u (by simp)) (h1 u' (by simp)) h2
      rw [List.cons_prefix_cons]
      exact ⟨rfl, ih us' rest rest' (fun w hw => hu w (by simp [hw])) ⟨fun w hw => h1 w (by simp [hw]), e, h3⟩⟩

theorem cut_unique {bs : Bytes} {us us' : List Bytes} {rest rest' : Bytes} (h : Cut bs us rest) (h' : Cut bs us' rest') :
    us = us' ∧ rest = rest' := by
  have a := cut_prefix us us' rest rest' h.1 (h.2.1 ▸ h')
  have b := cut_prefix us' us rest' rest h'.1 (h'.2.1 ▸ h)
  have e : us = us' := List.IsPrefix.eq_of_length a (Nat.le_antisymm a.length_le b.length_le)
  subst e
  exact ⟨rfl, List.append_cancel_left (h.2.1.symm.trans h'.2.1)⟩

theorem cut_exists (bs : Bytes) : ∃ us rest, Cut bs us rest := by
  generalize hn : bs.length = n
  induction n using Nat.strongRecOn generalizing bs with
  | _ n ih =>
    by_cases h : ∃ u t, bs = u ++ t ∧ RespUnit u
    · obtain ⟨u, t, rfl, hu⟩ := h
      have := hu.1
      rw [List.length_append] at hn
      obtain ⟨us, rest, h1, h2, h3⟩ := ih t.length (by omega) t rfl
      refine ⟨u :: us, rest, ?_, by simp [h2], h3⟩
      intro w hw
      rcases List.mem_cons.1 hw with rfl | hw
      · exact hu
      · exact h1 w hw
    · exact ⟨[], bs, by simp, by simp, fun u t e hu => h ⟨u, t, e, hu⟩⟩

/-! ## One event, seen from a connection -/

/-- what happens to a connection apart from its own reading task -/
def AConn.more (x y : AConn) : Prop :=
  y.pc = x.pc ∧ (∃ t, y.buf = x.buf ++ t ∧ y.recvd = x.recvd ++ t ∧ (x.eof = true → t = [])) ∧
  (x.eof = true → y.eof = true) ∧ (x.cancelled = true → y.cancelled = true) ∧ (x.lost = true → y.lost = true)

theorem AConn.more_refl (x : AConn) : x.more x := ⟨rfl, ⟨[], by simp, by simp, fun _ => rfl⟩, id, id, id⟩

def AConn.fresh (y : AConn) : Prop := y.pc = .new ∧ y.buf = [] ∧ y.recvd = []

theorem modify_more {l : List AConn} {n m : Nat} {f : AConn → AConn} (h : ∀ k : AConn, k.more (f k)) {y : AConn}
    (hy : (l.modify n f)[m]? = some y) : ∃ x, l[m]? = some x ∧ x.more y := by
  by_cases e : n = m
  · subst e
    cases hx : l[n]? with
    | none => rw [List.getElem?_modify, hx] at hy; simp at hy
    | some x =>
      rw [modify_self hx] at hy
      cases hy
      exact ⟨x, rfl, h x⟩
  · rw [modify_other e] at hy
    exact ⟨y, hy, y.more_refl⟩

theorem astep_more (v : PyVer) (s : ASt) (e : AEv) {m : Nat} {y : AConn} (hy : (astep v s e).conns[m]? = some y)
    (he : e ≠ .recv m) : (∃ x, s.conns[m]? = some x ∧ x.more y) ∨ (s.conns[m]? = none ∧ y.fresh) := by
  have brk : ∀ i c r a n, (s.broken i c r a n).conns[m]? = some y → ∃ x, s.conns[m]? = some x ∧ x.more y := by
    intro i c r a n hy
    rw [broken_conns] at hy
    refine modify_more ?_ hy
    intro k
    exact ⟨rfl, ⟨[], by simp, by simp, fun _ => rfl⟩, id, fun _ => rfl, id⟩
  have same : s.conns[m]? = some y → ∃ x, s.conns[m]? = some x ∧ x.more y := fun h => ⟨y, h, y.more_refl⟩
  cases e with
  | call req => exact .inl (same hy)
  | start i addr =>
    left
    simp only [astep, ASt.start] at hy
    split at hy
    · split at hy
      · rw [send_conns] at hy; exact same hy
      · exact same hy
    · exact same hy
  | lock i =>
    left
    simp only [astep, ASt.lockTurn] at hy
    split at hy
    · split at hy
      · split at hy
        · split at hy <;> exact same hy
        · exact same hy
      · exact same hy
    · exact same hy
  | dialed i ok =>
    simp only [astep, ASt.dialed] at hy
    split at hy
    · split at hy
      · next r a l hp =>
        split at hy
        · have hy : (s.conns ++ [({ addr := a } : AConn)])[m]? = some y := by
            split at hy <;> exact hy
          by_cases hm : m < s.conns.length
          · rw [List.getElem?_append_left hm] at hy
            exact .inl (same hy)
          · right
            have hm : s.conns.length ≤ m := Nat.le_of_not_lt hm
            rw [List.getElem?_append_right hm] at hy
            refine ⟨List.getElem?_eq_none hm, ?_⟩
            have hy := List.mem_of_getElem? hy
            rw [List.mem_singleton] at hy
            subst hy
            exact ⟨rfl, rfl, rfl⟩
        · rw [sendFailed_conns] at hy; exact .inl (same hy)
      · exact .inl (same hy)
    · exact .inl (same hy)
  | drained i ok =>
    left
    simp only [astep, ASt.drained] at hy
    split at hy
    · split at hy
      · split at hy
        · split at hy
          · exact brk _ _ _ _ _ hy
          · refine modify_more (l := s.conns) ?_ hy
            exact fun k => ⟨rfl, ⟨[], by simp, by simp, fun _ => rfl⟩, id, id, id⟩
        · exact brk _ _ _ _ _ hy
      · split at hy
        · split at hy
          · exact same hy
          · split at hy <;> exact same hy
        · exact brk _ _ _ _ _ hy
      · exact same hy
    · exact same hy
  | wake i =>
    left
    simp only [astep, ASt.wake] at hy
    split at hy
    · split at hy
      · split at hy
        · split at hy <;> exact same hy
        · exact same hy
      · exact same hy
    · exact same hy
  | cancel i =>
    left
    simp only [astep, ASt.cancel] at hy
    split at hy
    · split at hy
      · exact same hy
      · split at hy
        · rw [sendFailed_conns] at hy; exact same hy
        · exact same hy
      · split at hy
        · rw [sendFailed_conns] at hy; exact same hy
        · exact same hy
      · split at hy
        · exact brk _ _ _ _ _ hy
        · exact same hy
      · split at hy
        · exact brk _ _ _ _ _ hy
        · exact same hy
      · exact same hy
      · exact same hy
    · exact same hy
  | recv n =>
    left
    have : (s.recv n).conns[m]? = some y := hy
    rw [recv_other s (fun h => he (by rw [h]))] at this
    exact same this
  | data n bs =>
    left
    refine modify_more (l := s.conns) ?_ hy
    intro k
    split
    · exact k.more_refl
    · next h =>
      refine ⟨rfl, ⟨bs, rfl, rfl, ?_⟩, id, id, id⟩
      intro he
      rw [he] at h
      simp at h
  | eof n =>
    left
    refine modify_more (l := s.conns) ?_ hy
    intro k
    exact ⟨rfl, ⟨[], by simp, by simp, fun _ => rfl⟩, fun _ => rfl, id, id⟩
  | reset n =>
    left
    refine modify_more (l := s.conns) ?_ hy
    intro k
    exact ⟨rfl, ⟨[], by simp, by simp, fun _ => rfl⟩, id, id, fun _ => rfl⟩

/-! ## The invariant -/

theorem packages_snoc (us : List Bytes) (u : Bytes) :
    packages (us ++ [u]) = packages us ++ (fromStream .boltResponse u).toOption.toList := by
  unfold packages
  rw [List.filterMap_append]
  cases h : (fromStream .boltResponse u).toOption with
  | none => simp [h]
  | some p => simp [h]

/-- no complete frame -/
def Spec.NoUnit (rest : Bytes) : Prop := ∀ u t, rest = u ++ t → ¬ RespUnit u

theorem noUnit_short {bs : Bytes} (h : bs.length < 20) : NoUnit bs := by
  rintro u t rfl ⟨hu, -⟩
  rw [List.length_append] at h
  omega

/-- the fixed part of a frame says how long the rest must be -/
theorem noUnit_body {hb bs : Bytes} {w : Nat} (hl : hb.length = 20) (hd : declaredLength false hb = 20 + w)
    (h : bs.length < w) : NoUnit (hb ++ bs) := by
  intro u t e hu
  have e1 := respUnit_prefix hb bs (by omega)
  rw [e, respUnit_prefix u t hu.1, ← hu.2, hd] at e1
  have := congrArg List.length e
  rw [List.length_append, List.length_append] at this
  omega

/-- Where the reading task is, and what it has made of what it has read. -/
def AConn.Reads (k : AConn) (ps : List Pkg) : Prop :=
  ∃ (us : List Bytes) (rest : Bytes), (∀ u ∈ us, RespUnit u) ∧ k.recvd = us.flatten ++ rest ∧ ps = packages us ∧
    match k.pc with
    | .new | .hdr => rest = k.buf
    | .body h => ∃ hb : Bytes, hb.length = 20 ∧ boltHeaderFromStream .boltResponse hb = .ok h ∧ rest = hb ++ k.buf
    | .ended => k.cancelled = true ∨ k.lost = true ∨ (k.eof = true ∧ NoUnit rest)

theorem AConn.Reads.more {x y : AConn} {ps : List Pkg} (h : x.Reads ps) (hm : x.more y) : y.Reads ps := by
  obtain ⟨us, rest, h1, h2, h3, h4⟩ := h
  obtain ⟨m1, ⟨t, m2, m3, m4⟩, m5, m6, m7⟩ := hm
  refine ⟨us, rest ++ t, h1, by rw [m3, h2, List.append_assoc], h3, ?_⟩
  rw [m1]
  cases hp : x.pc with
  | new => rw [hp] at h4; show _ = _; rw [h4, m2]
  | hdr => rw [hp] at h4; show _ = _; rw [h4, m2]
  | body h =>
    rw [hp] at h4
    obtain ⟨hb, a, b, c⟩ := h4
    exact ⟨hb, a, b, by rw [c, m2, List.append_assoc]⟩
  | ended =>
    rw [hp] at h4
    rcases h4 with a | a | ⟨a, b⟩
    · exact .inl (m6 a)
    · exact .inr (.inl (m7 a))
    · refine .inr (.inr ⟨m5 a, ?_⟩)
      rw [m4 a, List.append_nil]
      exact b

theorem processes_det {s : ASt} {n : Nat} {p q : Pkg} (h : Processes s n p) (h' : Processes s n q) : p = q := by
  obtain ⟨k, h, size, hk, hp, -, -, hs, -, hd⟩ := h
  obtain ⟨k', h', size', hk', hp', -, -, hs', -, hd'⟩ := h'
  rw [hk] at hk'; cases hk'
  rw [hp] at hp'; cases hp'
  rw [hs] at hs'; cases hs'
  rw [hd] at hd'; cases hd'
  rfl

/-- one turn of the reading task -/
theorem recv_reads (s : ASt) (n : Nat) {x y : AConn} {ps : List Pkg} (hx : s.conns[n]? = some x) (h : x.Reads ps)
    (hy : (s.recv n).conns[n]? = some y) :
    (∃ p, Processes s n p ∧ y.Reads (ps ++ [p])) ∨ ((∀ p, ¬ Processes s n p) ∧ y.Reads ps) := by
  have key : ∀ k' : AConn, (s.conns.set n k')[n]? = some k' := by
    intro k'
    rw [List.getElem?_set, if_pos rfl, if_pos (List.getElem?_eq_some_iff.1 hx).1]
  have nope : (∀ h, x.pc ≠ .body h) → ∀ p, ¬ Processes s n p := by
    rintro hp p ⟨k, h, size, hk, hb, -⟩
    rw [hx] at hk; cases hk
    exact hp h hb
  obtain ⟨us, rest, h1, h2, h3, h4⟩ := h
  unfold ASt.recv at hy
  rw [hx] at hy
  dsimp only at hy
  cases hp : x.pc with
  | ended =>
    rw [hp] at hy h4
    dsimp only at hy
    rw [hx] at hy; cases hy
    refine .inr ⟨nope (by rw [hp]; intro h; exact nofun), us, rest, h1, h2, h3, ?_⟩
    rw [hp]; exact h4
  | new =>
    rw [hp] at hy h4
    dsimp only at hy h4
    refine .inr ⟨nope (by rw [hp]; intro h; exact nofun), us, rest, h1, ?_, h3, ?_⟩
    · split at hy <;> (erw [key] at hy; cases hy; exact h2)
    · split at hy
      · next hc => erw [key] at hy; cases hy; exact .inl hc
      · erw [key] at hy; cases hy; exact h4
  | hdr =>
    rw [hp] at hy h4
    dsimp only at hy h4
    refine .inr ⟨nope (by rw [hp]; intro h; exact nofun), ?_⟩
    split at hy
    · next hc =>
      erw [key] at hy; cases hy
      refine ⟨us, rest, h1, h2, h3, ?_⟩
      show _ ∨ _
      rw [Bool.or_eq_true] at hc
      exact hc.elim .inl (fun h => .inr (.inl h))
    · split at hy
      · next hl =>
        have hl20 : 20 ≤ x.buf.length := hl
        have hlen : (x.buf.take 20).length = 20 := by rw [List.length_take]; omega
        obtain ⟨h, hh⟩ := boltHeaderFromStream_total .boltResponse (x.buf.take 20) (by rw [hlen]; exact Nat.le_refl _)
        rw [show PkgClass.boltResponse.headerSize = 20 from rfl, hh] at hy
        dsimp only at hy
        erw [key] at hy; cases hy
        refine ⟨us, rest, h1, h2, h3, x.buf.take 20, hlen, hh, ?_⟩
        rw [h4]
        exact (List.take_append_drop ..).symm
      · next hl =>
        split at hy
        · next he =>
          erw [key] at hy; cases hy
          refine ⟨us, rest, h1, h2, h3, .inr (.inr ⟨he, noUnit_short ?_⟩)⟩
          rw [h4]
          exact Nat.lt_of_not_le hl
        · rw [hx] at hy; cases hy
          refine ⟨us, rest, h1, h2, h3, ?_⟩
          rw [hp]; exact h4
  | body h =>
    rw [hp] at hy h4
    dsimp only at hy h4
    obtain ⟨hb, hlen, hh, hr⟩ := h4
    obtain ⟨h', w, e1, b1, d1, -⟩ := header_declares .boltResponse hb (by rw [hlen]; exact Nat.le_refl _)
    rw [hh] at e1
    cases e1
    rw [show PkgClass.boltResponse.isRequest = false from rfl, headerSize_resp] at d1
    have silent : (x.cancelled = true ∨ x.lost = true ∨ x.buf.length < w) → ∀ p, ¬ Processes s n p := by
      rintro hc p ⟨k, g, size, hk, hb', c1, c2, hs, hle, -⟩
      rw [hx] at hk; cases hk
      rw [hp] at hb'; cases hb'
      rw [b1] at hs; cases hs
      rw [Int.toNat_natCast] at hle
      rcases hc with h | h | h
      · rw [c1] at h; cases h
      · rw [c2] at h; cases h
      · omega
    split at hy
    · next hc =>
      rw [Bool.or_eq_true] at hc
      erw [key] at hy; cases hy
      refine .inr ⟨silent (hc.elim .inl (fun h => .inr (.inl h))), us, rest, h1, h2, h3, ?_⟩
      exact hc.elim .inl (fun h => .inr (.inl h))
    · next hc =>
      have hc : x.cancelled = false ∧ x.lost = false := by simpa using hc
      rw [b1] at hy
      dsimp only at hy
      rw [Int.toNat_natCast] at hy
      split at hy
      · next hl =>
        have hul : (hb ++ x.buf.take w).length = 20 + w := by
          rw [List.length_append, hlen, List.length_take]; omega
        have hu : RespUnit (hb ++ x.buf.take w) := by
          refine ⟨by omega, ?_⟩
          rw [respUnit_prefix _ _ (by omega), d1, hul]
        have hfs : fromStream .boltResponse (hb ++ x.buf.take w) = boltContentFromStream .boltResponse (x.buf.take w) h := by
          have e : boltHeaderFromStream .boltResponse (hb ++ x.buf.take w) = .ok h := by
            rw [← hh]
            unfold boltHeaderFromStream
            rw [List.take_append_of_le_length (by rw [headerSize_resp]; omega)]
          unfold fromStream
          rw [e]
          simp only [bind, Except.bind]
          rw [headerSize_resp, ← hlen, List.drop_left]
        have hunits : ∀ u ∈ us ++ [hb ++ x.buf.take w], RespUnit u := by
          intro u hu'
          rcases List.mem_append.1 hu' with h | h
          · exact h1 u h
          · rw [List.mem_singleton.1 h]; exact hu
        have hrec : x.recvd = (us ++ [hb ++ x.buf.take w]).flatten ++ x.buf.drop w := by
          rw [h2, hr]; simp
        cases hd : boltContentFromStream .boltResponse (x.buf.take w) h with
        | error er =>
          rw [hd] at hy hfs
          dsimp only at hy
          erw [key] at hy; cases hy
          refine .inr ⟨?_, us ++ [hb ++ x.buf.take w], x.buf.drop w, hunits, hrec, ?_, rfl⟩
          · rintro p ⟨k, g, size, hk, hb', c1, c2, hs, hle, hdd⟩
            rw [hx] at hk; cases hk
            rw [hp] at hb'; cases hb'
            rw [b1] at hs; cases hs
            rw [Int.toNat_natCast, hd] at hdd
            cases hdd
          · rw [packages_snoc, hfs, h3]; simp [Except.toOption]
        | ok p =>
          rw [hd] at hy hfs
          dsimp only at hy
          rw [onPkg_conns] at hy
          erw [key] at hy; cases hy
          refine .inl ⟨p, ⟨x, h, w, hx, hp, hc.1, hc.2, b1, by rw [Int.toNat_natCast]; exact hl,
            by rw [Int.toNat_natCast]; exact hd⟩, us ++ [hb ++ x.buf.take w], x.buf.drop w, hunits, hrec, ?_, rfl⟩
          rw [packages_snoc, hfs, h3]; rfl
      · next hl =>
        have hl : x.buf.length < w := Nat.lt_of_not_le hl
        refine .inr ⟨silent (.inr (.inr hl)), ?_⟩
        split at hy
        · next he =>
          erw [key] at hy; cases hy
          refine ⟨us, rest, h1, h2, h3, .inr (.inr ⟨he, ?_⟩)⟩
          rw [hr]
          exact noUnit_body hlen d1 hl
        · rw [hx] at hy; cases hy
          refine ⟨us, rest, h1, h2, h3, ?_⟩
          rw [hp]
          exact ⟨hb, hlen, hh, hr⟩

theorem log_exists (v : PyVer) (n : Nat) (evs : List AEv) : ∃ ps, Log v n evs ps := by
  induction evs using snoc_induct with
  | nil => exact ⟨[], .nil⟩
  | snoc evs e ih =>
    obtain ⟨ps, h⟩ := ih
    by_cases he : e = .recv n ∧ ∃ p, Processes (arun v evs) n p
    · obtain ⟨rfl, p, hp⟩ := he
      exact ⟨_, .pkg h hp⟩
    · exact ⟨ps, .other h fun h1 p hp => he ⟨h1, p, hp⟩⟩

theorem log_inv {v : PyVer} {n : Nat} {evs : List AEv} {ps : List Pkg} (h : Log v n evs ps) :
    (∀ k, (arun v evs).conns[n]? = some k → k.Reads ps) ∧ ((arun v evs).conns[n]? = none → ps = []) := by
  induction h with
  | nil => exact ⟨(by intro k hk; cases hk), fun _ => rfl⟩
  | @pkg evs ps p _ hp ih =>
    rw [arun_snoc]
    obtain ⟨x, hx⟩ : ∃ x, (arun v evs).conns[n]? = some x := by
      obtain ⟨k, _, _, hk, _⟩ := hp
      exact ⟨k, hk⟩
    refine ⟨?_, ?_⟩
    · intro k hk
      rcases recv_reads _ n hx (ih.1 x hx) hk with ⟨q, hq, hr⟩ | ⟨hno, -⟩
      · rw [processes_det hp hq]; exact hr
      · exact absurd hp (hno p)
    · intro hk
      obtain ⟨y, hy, -⟩ := recv_flags _ n hx
      rw [show (astep v (arun v evs) (.recv n)).conns[n]? = ((arun v evs).recv n).conns[n]? from rfl, hy] at hk
      cases hk
  | @other evs ps e _ hno ih =>
    rw [arun_snoc]
    by_cases he : e = .recv n
    · subst he
      refine ⟨?_, ?_⟩
      · intro k hk
        cases hx : (arun v evs).conns[n]? with
        | none =>
          have hk : ((arun v evs).recv n).conns[n]? = some k := hk
          unfold ASt.recv at hk
          rw [hx] at hk
          dsimp only at hk
          rw [hx] at hk
          cases hk
        | some x =>
          rcases recv_reads _ n hx (ih.1 x hx) hk with ⟨q, hq, -⟩ | ⟨-, hr⟩
          · exact absurd hq (hno rfl q)
          · exact hr
      · intro hk
        cases hx : (arun v evs).conns[n]? with
        | none => exact ih.2 hx
        | some x =>
          obtain ⟨y, hy, -⟩ := recv_flags _ n hx
          rw [show (astep v (arun v evs) (.recv n)).conns[n]? = ((arun v evs).recv n).conns[n]? from rfl, hy] at hk
          cases hk
    · refine ⟨?_, ?_⟩
      · intro k hk
        rcases astep_more v _ e hk he with ⟨x, hx, hm⟩ | ⟨hx, f1, f2, f3⟩
        · exact (ih.1 x hx).more hm
        · rw [ih.2 hx]
          refine ⟨[], [], by simp, by rw [f3]; rfl, rfl, ?_⟩
          rw [f1]
          exact f2.symm
      · intro hk
        cases hx : (arun v evs).conns[n]? with
        | none => exact ih.2 hx
        | some x =>
          obtain ⟨y, hy, -⟩ := astep_grows v _ e hx he
          rw [hy] at hk
          cases hk

/-- The reading task of connection `n` has nothing left to do: it has begun, and a turn of it changes nothing (it waits
for bytes, or has ended). -/
def Spec.Settled (s : ASt) (n : Nat) : Prop :=
  ∃ k, s.conns[n]? = some k ∧ k.pc ≠ .new ∧ s.recv n = s

/-- C98 (the frames are those of the byte stream): along every schedule the packages processed on a connection are the
first ones of those in the bytes received, cut into frames in the only possible way, in order, undecodable frames left
out. Once the reading task has nothing left to do on a connection that was neither lost nor given up they are all of
them: how the bytes were split into segments, when the task ran, and everything else the client did, do not matter. -/
theorem C98_frames (v : PyVer) (n : Nat) (evs : List AEv) (k : AConn) (hk : (arun v evs).conns[n]? = some k) :
    ∃ (ps : List Pkg) (us : List Bytes) (rest : Bytes), Log v n evs ps ∧ (∀ ps', Log v n evs ps' → ps' = ps) ∧
      Cut k.recvd us rest ∧ (∀ us' rest', Cut k.recvd us' rest' → us' = us ∧ rest' = rest) ∧
      ps <+: packages us ∧
      (Settled (arun v evs) n → k.cancelled = false → k.lost = false → ps = packages us) := by
  obtain ⟨ps, hl⟩ := log_exists v n evs
  obtain ⟨us, rest, hcut⟩ := cut_exists k.recvd
  obtain ⟨us0, rest0, h1, h2, h3, h4⟩ := (log_inv hl).1 k hk
  have hpre : us0 <+: us := cut_prefix us0 us rest0 rest h1 (h2 ▸ hcut)
  refine ⟨ps, us, rest, hl, ?_, hcut, fun us' rest' h => cut_unique h hcut, ?_, ?_⟩
  · -- the log is determined by the schedule
    have uniq : ∀ evs ps, Log v n evs ps → ∀ evs' ps', Log v n evs' ps' → evs' = evs → ps' = ps := by
      intro evs ps h
      induction h with
      | nil =>
        intro evs' ps' h' e
        cases h' with
        | nil => rfl
        | pkg _ _ => simp at e
        | other _ _ => simp at e
      | @pkg evs ps p h hp ih =>
        intro evs' ps' h' e
        cases h' with
        | nil => simp at e
        | @pkg evs2 ps2 p2 h2 hp2 =>
          have e := (List.append_inj' e rfl).1
          subst e
          rw [ih _ _ h2 rfl, processes_det hp hp2]
        | @other evs2 ps2 e2 h2 hno =>
          obtain ⟨e, e'⟩ := List.append_inj' e rfl
          subst e
          simp only [List.cons.injEq, and_true] at e'
          exact absurd hp (hno e' p)
      | @other evs ps e2 h hno ih =>
        intro evs' ps' h' e
        cases h' with
        | nil => simp at e
        | @pkg evs2 ps2 p2 h2 hp2 =>
          obtain ⟨e, e'⟩ := List.append_inj' e rfl
          subst e
          simp only [List.cons.injEq, and_true] at e'
          exact absurd hp2 (hno e'.symm p2)
        | @other evs2 ps2 e2 h2 hno =>
          have e := (List.append_inj' e rfl).1
          subst e
          exact ih _ _ h2 rfl
    intro ps' h'
    exact uniq evs ps hl evs ps' h' rfl
  · rw [h3]
    obtain ⟨t, rfl⟩ := hpre
    unfold packages
    rw [List.filterMap_append]
    exact List.prefix_append _ _
  · rintro ⟨k', hk', hnew, hset⟩ hc hlost
    rw [hk] at hk'; cases hk'
    have hcut0 : Cut k.recvd us0 rest0 := by
      refine ⟨h1, h2, ?_⟩
      have key : ∀ k' : AConn, ((arun v evs).setConn n k').conns[n]? = some k' := by
        intro k'
        show ((arun v evs).conns.set n k')[n]? = _
        rw [List.getElem?_set, if_pos rfl, if_pos (List.getElem?_eq_some_iff.1 hk).1]
      have hset' : ((arun v evs).recv n).conns[n]? = some k := by rw [hset]; exact hk
      unfold ASt.recv at hset'
      rw [hk] at hset'
      dsimp only at hset'
      cases hp : k.pc with
      | new => exact absurd hp hnew
      | ended =>
        rw [hp] at h4
        rcases h4 with h | h | ⟨-, h⟩
        · rw [hc] at h; cases h
        · rw [hlost] at h; cases h
        · exact h
      | hdr =>
        rw [hp] at h4 hset'
        dsimp only at h4 hset'
        rw [h4]
        refine noUnit_short (Nat.lt_of_not_le fun hle => ?_)
        have hlen : (k.buf.take 20).length = 20 := by rw [List.length_take]; omega
        obtain ⟨h, hh⟩ := boltHeaderFromStream_total .boltResponse (k.buf.take 20) (by rw [hlen]; exact Nat.le_refl _)
        rw [if_neg (by rw [hc, hlost]; simp), if_pos (by rw [headerSize_resp]; exact hle), headerSize_resp, hh] at hset'
        dsimp only at hset'
        rw [key] at hset'
        have := congrArg AConn.pc (Option.some.inj hset')
        rw [hp] at this
        cases this
      | body h =>
        rw [hp] at h4 hset'
        dsimp only at h4 hset'
        obtain ⟨hb, hlen, hh, hr⟩ := h4
        obtain ⟨h', w, e1, b1, d1, -⟩ := header_declares .boltResponse hb (by rw [hlen]; exact Nat.le_refl _)
        rw [hh] at e1
        cases e1
        rw [show PkgClass.boltResponse.isRequest = false from rfl, headerSize_resp] at d1
        rw [hr]
        refine noUnit_body hlen d1 (Nat.lt_of_not_le fun hle => ?_)
        rw [if_neg (by rw [hc, hlost]; simp), b1] at hset'
        dsimp only at hset'
        rw [Int.toNat_natCast, if_pos hle] at hset'
        cases hd : boltContentFromStream .boltResponse (k.buf.take w) h with
        | error er =>
          rw [hd] at hset'
          dsimp only at hset'
          rw [key] at hset'
          have := congrArg AConn.pc (Option.some.inj hset')
          rw [hp] at this
          cases this
        | ok p =>
          rw [hd] at hset'
          dsimp only at hset'
          rw [onPkg_conns, key] at hset'
          have := congrArg AConn.pc (Option.some.inj hset')
          rw [hp] at this
          cases this
    rw [h3, (cut_unique hcut0 hcut).1]

/-- Two clients, two schedules, the same bytes: the same packages. -/
theorem C98_segments (v v' : PyVer) (n n' : Nat) (evs evs' : List AEv) (k k' : AConn)
    (hk : (arun v evs).conns[n]? = some k) (hk' : (arun v' evs').conns[n']? = some k') (e : k.recvd = k'.recvd)
    (hs : Settled (arun v evs) n) (hs' : Settled (arun v' evs') n') (hh : k.cancelled = false ∧ k.lost = false)
    (hh' : k'.cancelled = false ∧ k'.lost = false) (ps ps' : List Pkg) (hl : Log v n evs ps) (hl' : Log v' n' evs' ps') :
    ps = ps' := by
  obtain ⟨qs, us, rest, -, q2, q3, -, -, q4⟩ := C98_frames v n evs k hk
  obtain ⟨qs', us', rest', -, q2', q3', -, -, q4'⟩ := C98_frames v' n' evs' k' hk'
  rw [e] at q3
  rw [q2 ps hl, q2' ps' hl', q4 hs hh.1 hh.2, q4' hs' hh'.1 hh'.2, (cut_unique q3 q3').1]

/-- Two replies that arrive in two segments, the first with a part of the second reply; a frame with a header that is no
UTF-8 follows, and the beginning of another frame. -/
def exSegments : List AEv := exTwoCalls ++
  [.data 0 (frame false ⟨1, 0, 2, 1, 9, 11, 0⟩ [65] [0, 0, 0, 1, 0xff] [66] ++ [1, 2, 3]), .recv 0, .recv 0, .recv 0]

set_option maxRecDepth 40000 in
example : Settled (arun .from38 exSegments) 0 ∧
    ((arun .from38 exSegments).conns.map fun k => (k.cancelled, k.lost, k.recvd)) = [(false, false,
      [reply 2 0 [22], reply 1 0 [11], frame false ⟨1, 0, 2, 1, 9, 11, 0⟩ [65] [0, 0, 0, 1, 0xff] [66]].flatten
        ++ [1, 2, 3])] ∧
    (packages [reply 2 0 [22], reply 1 0 [11], frame false ⟨1, 0, 2, 1, 9, 11, 0⟩ [65] [0, 0, 0, 1, 0xff] [66]]).map
      Pkg.requestId = [.int 2, .int 1] := by
  refine ⟨⟨_, rfl, ?_, ?_⟩, ?_, ?_⟩ <;> decide +kernel

end Bolt
