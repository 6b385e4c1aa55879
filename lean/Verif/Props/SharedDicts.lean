import Verif.Model.SharedDicts
import Verif.Lemmas.Dict
import Verif.Lemmas.AioClient
/-!
# C143, C144: dictionaries that threads share
-/
namespace Bolt
open Spec

/-! ## C143: publishing while interfaces are registered -/

/-- the interfaces registered so far, in the order of their first registration -/
def Spec.registeredBy (evs : List PubEv) : List PyStr :=
  evs.foldl (fun acc e => match e with
    | .register x => if acc.contains x then acc else acc ++ [x]
    | _ => acc) []

/-- the interfaces for which thread `i` has sent requests, in order -/
def Spec.sentBy (s : PubSt) (i : Nat) : List PyStr := (s.posts.filter fun p => p.1 == i).map Prod.snd

/-- The mesh accepts every request. -/
def Spec.AcceptsAll (mesh : Mesh) : Prop := ∀ log ep json, ∃ log' d, meshPost mesh log ep json = (log', .ok d)

theorem pubRun_snoc (mesh : Mesh) (ep : PyStr) (json : PyStr → PyDict PyStr PayVal) (n : Nat) (evs : List PubEv) (e : PubEv) :
    pubRun mesh ep json n (evs ++ [e]) = pubStep mesh ep json (pubRun mesh ep json n evs) e := by
  simp [pubRun, List.foldl_append]

theorem registeredBy_snoc (evs : List PubEv) (e : PubEv) :
    registeredBy (evs ++ [e]) = match e with
      | .register x => if (registeredBy evs).contains x then registeredBy evs else registeredBy evs ++ [x]
      | _ => registeredBy evs := by
  simp only [registeredBy, List.foldl_append, List.foldl_cons, List.foldl_nil]
  cases e <;> rfl

/-- C143 as listed: a call of `publish` that is over has announced every interface registered before it, once and in
order, and has returned. -/
def C143_full : Prop :=
  ∀ (mesh : Mesh) (ep : PyStr) (json : PyStr → PyDict PyStr PayVal) (n : Nat) (pre post : List PubEv) (i : Nat) (r : PubEnd),
    AcceptsAll mesh → .call i ∉ pre → (pubRun mesh ep json n (pre ++ .call i :: post)).thr[i]? = some (.over r) →
    r = .returned ∧ sentBy (pubRun mesh ep json n (pre ++ .call i :: post)) i = registeredBy pre

theorem pub_names (mesh : Mesh) (ep : PyStr) (json : PyStr → PyDict PyStr PayVal) (n : Nat) (evs : List PubEv) :
    (pubRun mesh ep json n evs).names = registeredBy evs := by
  induction evs using snoc_induct with
  | nil => rfl
  | snoc l e ih =>
    rw [pubRun_snoc, registeredBy_snoc, ← ih]
    cases e with
    | register x => simp only [pubStep, List.contains_iff_mem]; split <;> rfl
    | call i => simp only [pubStep]; split <;> rfl
    | step i =>
      simp only [pubStep]
      split
      · split
        · rfl
        · split <;> rfl
      · split <;> rfl
      · rfl

theorem pub_len (mesh : Mesh) (ep : PyStr) (json : PyStr → PyDict PyStr PayVal) (n : Nat) (evs : List PubEv) :
    (pubRun mesh ep json n evs).thr.length = n := by
  induction evs using snoc_induct with
  | nil => simp [pubRun]
  | snoc l e ih =>
    rw [pubRun_snoc]
    cases e with
    | register x => simp only [pubStep]; split <;> simp [ih]
    | call i => simp only [pubStep]; split <;> simp [ih]
    | step i =>
      simp only [pubStep]
      split
      · split
        · simp [ih]
        · split <;> simp [ih]
      · split <;> simp [ih]
      · exact ih

theorem registeredBy_prefix (a b : List PubEv) : registeredBy a <+: registeredBy (a ++ b) := by
  induction b using snoc_induct with
  | nil => simp
  | snoc l e ih =>
    rw [← List.append_assoc, registeredBy_snoc]
    cases e with
    | register x =>
      simp only
      split
      · exact ih
      · exact ih.trans (List.prefix_append _ _)
    | call i => exact ih
    | step i => exact ih

/-- what thread `i` has done so far, when the interfaces `N0` were registered at its call and the registry is now `names` -/
def PubOk (fails : PyStr → PyExc → Prop) (N0 names sent : List PyStr) : PubPC → Prop
  | .idle => False
  | .next pos size => size = N0.length ∧ pos ≤ size ∧ sent = N0.take pos
  | .post pos size x => size = N0.length ∧ N0[pos]? = some x ∧ sent = N0.take pos
  | .over .returned => sent = N0
  | .over .changed => N0.length < names.length ∧ sent <+: N0
  | .over (.raised e) => ∃ m x, N0[m]? = some x ∧ sent = N0.take (m + 1) ∧ fails x e

theorem PubOk.mono {fails : PyStr → PyExc → Prop} {N0 names names' sent : List PyStr} {p : PubPC} (h : PubOk fails N0 names sent p)
    (hn : names.length ≤ names'.length) : PubOk fails N0 names' sent p := by
  unfold PubOk at h ⊢
  split at h
  · exact h
  · exact h
  · exact h
  · exact h
  · exact ⟨by omega, h.2⟩
  · exact h

theorem pub_idle (mesh : Mesh) (ep : PyStr) (json : PyStr → PyDict PyStr PayVal) (n : Nat) (evs : List PubEv) (i : Nat)
    (hi : i < n) (h : PubEv.call i ∉ evs) :
    (pubRun mesh ep json n evs).thr[i]? = some .idle ∧ sentBy (pubRun mesh ep json n evs) i = [] := by
  induction evs using snoc_induct with
  | nil => simp [pubRun, hi, sentBy]
  | snoc l e ih =>
    obtain ⟨h1, h2⟩ := ih fun hm => h (List.mem_append_left _ hm)
    have hl := pub_len mesh ep json n l
    rw [pubRun_snoc]
    cases e with
    | register x => simp only [pubStep]; split <;> exact ⟨h1, h2⟩
    | call j =>
      have : j ≠ i := by rintro rfl; simp at h
      simp only [pubStep]
      split
      · exact ⟨by simp only [List.getElem?_set]; rw [if_neg this]; exact h1, h2⟩
      · exact ⟨h1, h2⟩
    | step j =>
      by_cases hj : j = i
      · subst hj; simp only [pubStep]; rw [h1]; exact ⟨h1, h2⟩
      · simp only [pubStep]
        split
        · split
          · exact ⟨by simp only [List.getElem?_set]; rw [if_neg hj]; exact h1, h2⟩
          · split <;> exact ⟨by simp only [List.getElem?_set]; rw [if_neg hj]; exact h1, h2⟩
        · split <;> exact ⟨by simp only [List.getElem?_set]; rw [if_neg hj]; exact h1, by
            simpa [sentBy, List.filter_append, hj] using h2⟩
        · exact ⟨h1, h2⟩

theorem pub_inv (mesh : Mesh) (ep : PyStr) (json : PyStr → PyDict PyStr PayVal) (n : Nat) (pre post : List PubEv) (i : Nat)
    (hi : i < n) (h : PubEv.call i ∉ pre) :
    ∃ p, (pubRun mesh ep json n (pre ++ .call i :: post)).thr[i]? = some p ∧
      PubOk (fun x e => ∃ log, (meshPost mesh log ep (json x)).2 = .error e) (registeredBy pre) (pubRun mesh ep json n (pre ++ .call i :: post)).names
        (sentBy (pubRun mesh ep json n (pre ++ .call i :: post)) i) p := by
  induction post using snoc_induct with
  | nil =>
    obtain ⟨h1, h2⟩ := pub_idle mesh ep json n pre i hi h
    have hl := pub_len mesh ep json n pre
    refine ⟨.next 0 (registeredBy pre).length, ?_, ?_⟩
    · rw [pubRun_snoc]
      simp only [pubStep]
      rw [if_pos h1, pub_names]
      simp [hl, hi]
    · rw [pubRun_snoc]
      simp only [pubStep]
      rw [if_pos h1]
      exact ⟨rfl, Nat.zero_le _, by simpa [sentBy] using h2⟩
  | snoc l e ih =>
    rw [show pre ++ PubEv.call i :: (l ++ [e]) = (pre ++ .call i :: l) ++ [e] by simp, pubRun_snoc]
    obtain ⟨p, hp, hok⟩ := ih
    have hl := pub_len mesh ep json n (pre ++ .call i :: l)
    have hpre : registeredBy pre <+: (pubRun mesh ep json n (pre ++ .call i :: l)).names := by
      rw [pub_names]; exact registeredBy_prefix _ _
    revert hp hok hl hpre
    generalize pubRun mesh ep json n (pre ++ .call i :: l) = s
    intro hp hok hl hpre
    cases e with
    | register x =>
      simp only [pubStep]
      split
      · exact ⟨p, hp, hok⟩
      · exact ⟨p, hp, hok.mono (by simp)⟩
    | call j =>
      simp only [pubStep]
      split
      · next hj =>
        refine ⟨p, ?_, hok⟩
        have : j ≠ i := by
          rintro rfl
          rw [hj] at hp
          cases hp
          exact hok
        simp only [List.getElem?_set]
        rw [if_neg this]
        exact hp
      · exact ⟨p, hp, hok⟩
    | step j =>
      by_cases hj : j = i
      · subst hj
        simp only [pubStep]
        rw [hp]
        split
        · next pos size he =>
          cases he
          obtain ⟨rfl, h2, h3⟩ := hok
          split
          · next hne =>
            refine ⟨_, List.getElem?_set_self (by omega), ?_⟩
            have := hpre.length_le
            exact ⟨by simp only; omega, by simp only [sentBy] at h3 ⊢; rw [h3]; exact List.take_prefix _ _⟩
          · next heq =>
            have heq : s.names = registeredBy pre := (hpre.eq_of_length (by omega)).symm
            split
            · next hnone =>
              refine ⟨_, List.getElem?_set_self (by omega), ?_⟩
              have := List.getElem?_eq_none_iff.1 hnone
              rw [heq] at this
              show sentBy s j = _
              rw [h3, List.take_of_length_le this]
            · next x hx =>
              refine ⟨_, List.getElem?_set_self (by omega), ?_⟩
              exact ⟨rfl, heq ▸ hx, h3⟩
        · next pos size x he =>
          cases he
          obtain ⟨rfl, h2, h3⟩ := hok
          have hlt := (List.getElem?_eq_some_iff.1 h2).1
          have hs : sentBy { s with posts := s.posts ++ [(j, x)] } j = (registeredBy pre).take (pos + 1) := by
            rw [List.take_add_one, h2, ← h3]
            simp [sentBy]
          split
          · next log' e hm => exact ⟨_, List.getElem?_set_self (by omega), pos, x, h2, hs, s.log, by rw [hm]⟩
          · exact ⟨_, List.getElem?_set_self (by omega), rfl, hlt, hs⟩
        · exact ⟨p, hp, hok⟩
      · simp only [pubStep]
        split
        · split
          · exact ⟨p, by simp only [List.getElem?_set]; rw [if_neg hj]; exact hp, hok⟩
          · split <;> exact ⟨p, by simp only [List.getElem?_set]; rw [if_neg hj]; exact hp, hok⟩
        · have hs : ∀ x, sentBy { s with posts := s.posts ++ [(j, x)] } i = sentBy s i := by
            intro x
            simp [sentBy, List.filter_append, hj]
          split
          · exact ⟨p, by simp only [List.getElem?_set]; rw [if_neg hj]; exact hp, by
              have := hs; simp only [sentBy] at this hok ⊢; rw [this]; exact hok⟩
          · exact ⟨p, by simp only [List.getElem?_set]; rw [if_neg hj]; exact hp, by
              have := hs; simp only [sentBy] at this hok ⊢; rw [this]; exact hok⟩
        · exact ⟨p, hp, hok⟩

/-- C143, what holds in every case: a call of `publish` that has returned has announced exactly the interfaces that were
registered before it, once and in order; if it raised `RuntimeError`, an interface was registered for the first time in
the meantime, and it has announced some of the first ones; if the mesh failed, it has announced those up to the one that
failed. Missing: the interfaces that are left out. -/
theorem C143_exact_partial (mesh : Mesh) (ep : PyStr) (json : PyStr → PyDict PyStr PayVal) (n : Nat) (pre post : List PubEv)
    (i : Nat) (r : PubEnd) (hc : PubEv.call i ∉ pre)
    (h : (pubRun mesh ep json n (pre ++ .call i :: post)).thr[i]? = some (.over r)) :
    match r with
    | .returned => sentBy (pubRun mesh ep json n (pre ++ .call i :: post)) i = registeredBy pre
    | .changed => (registeredBy pre).length < (registeredBy (pre ++ .call i :: post)).length ∧
        sentBy (pubRun mesh ep json n (pre ++ .call i :: post)) i <+: registeredBy pre
    | .raised e => ∃ m x, (registeredBy pre)[m]? = some x ∧
        sentBy (pubRun mesh ep json n (pre ++ .call i :: post)) i = (registeredBy pre).take (m + 1) ∧
        ∃ log, (meshPost mesh log ep (json x)).2 = .error e := by
  have hi : i < n := by
    have := (List.getElem?_eq_some_iff.1 h).1
    rwa [pub_len] at this
  obtain ⟨p, hp, hok⟩ := pub_inv mesh ep json n pre post i hi hc
  rw [h] at hp
  cases hp
  rw [pub_names] at hok
  cases r <;> exact hok

/-- C143: what the mesh gets are these requests, in order. -/
theorem C143_log (mesh : Mesh) (ep : PyStr) (json : PyStr → PyDict PyStr PayVal) (n : Nat) (evs : List PubEv) :
    (pubRun mesh ep json n evs).log = (pubRun mesh ep json n evs).posts.map fun p => ⟨ep, json p.2⟩ := by
  induction evs using snoc_induct with
  | nil => rfl
  | snoc l e ih =>
    rw [pubRun_snoc]
    cases e with
    | register x => simp only [pubStep]; split <;> exact ih
    | call i => simp only [pubStep]; split <;> exact ih
    | step i =>
      simp only [pubStep]
      split
      · split
        · exact ih
        · split <;> exact ih
      · split
        all_goals
          next log' e hm =>
          have := congrArg Prod.fst hm
          simp only [meshPost] at this
          simp only [List.map_append, ← ih, ← this]
          rfl
      · exact ih

/-- C143 holds for calls during which nothing new is registered. -/
theorem C143_quiet_partial (mesh : Mesh) (ep : PyStr) (json : PyStr → PyDict PyStr PayVal) (n : Nat) (pre post : List PubEv)
    (i : Nat) (r : PubEnd) (ha : AcceptsAll mesh) (hc : PubEv.call i ∉ pre)
    (h : (pubRun mesh ep json n (pre ++ .call i :: post)).thr[i]? = some (.over r))
    (hq : ∀ x, PubEv.register x ∈ post → PubEv.register x ∈ pre) :
    r = .returned ∧ sentBy (pubRun mesh ep json n (pre ++ .call i :: post)) i = registeredBy pre := by
  have hmem : ∀ x, PubEv.register x ∈ pre → x ∈ registeredBy pre := by
    clear h hc hq
    intro x
    induction pre using snoc_induct with
    | nil => intro h; cases h
    | snoc l e ih =>
      intro h
      rw [registeredBy_snoc]
      rcases List.mem_append.1 h with h' | h'
      · clear h
        cases e with
        | register y =>
          simp only
          split
          · exact ih h'
          · exact List.mem_append_left _ (ih h')
        | call j => exact ih h'
        | step j => exact ih h'
      · cases List.mem_singleton.1 h'
        simp only
        split
        · next hh => simpa using hh
        · simp
  have hsame : registeredBy (pre ++ .call i :: post) = registeredBy pre := by
    clear h
    induction post using snoc_induct with
    | nil => rw [registeredBy_snoc]
    | snoc l e ih =>
      rw [show pre ++ PubEv.call i :: (l ++ [e]) = (pre ++ .call i :: l) ++ [e] by simp, registeredBy_snoc,
        ih fun x hx => hq x (List.mem_append_left _ hx)]
      cases e with
      | register x =>
        have : x ∈ registeredBy pre := hmem x (hq x (by simp))
        simp [this]
      | call j => rfl
      | step j => rfl
  have hx := C143_exact_partial mesh ep json n pre post i r hc h
  rw [hsame] at hx
  cases r with
  | returned => exact ⟨rfl, hx⟩
  | changed => exact absurd hx.1 (by omega)
  | raised e =>
    obtain ⟨m, x, -, -, log, hm⟩ := hx
    obtain ⟨log', d, hd⟩ := ha log ep (json x)
    rw [hd] at hm
    cases hm

/-- C143: a call of `publish` comes to an end whatever is registered meanwhile, with at most two steps for each interface
registered before it and one more. -/
theorem C143_ends (mesh : Mesh) (ep : PyStr) (json : PyStr → PyDict PyStr PayVal) (n : Nat) (pre post : List PubEv) (i : Nat)
    (hi : i < n) (hc : PubEv.call i ∉ pre) (hs : 2 * (registeredBy pre).length + 1 ≤ post.count (.step i)) :
    ∃ r, (pubRun mesh ep json n (pre ++ .call i :: post)).thr[i]? = some (.over r) := by
  have key : ∀ post, (∃ r, (pubRun mesh ep json n (pre ++ .call i :: post)).thr[i]? = some (.over r)) ∨
      (∃ pos size, (pubRun mesh ep json n (pre ++ .call i :: post)).thr[i]? = some (.next pos size) ∧
        post.count (.step i) ≤ 2 * pos) ∨
      (∃ pos size x, (pubRun mesh ep json n (pre ++ .call i :: post)).thr[i]? = some (.post pos size x) ∧
        post.count (.step i) ≤ 2 * pos + 1) := by
    intro post
    have hok := pub_inv mesh ep json n pre post i hi hc
    clear hs
    induction post using snoc_induct with
    | nil =>
      obtain ⟨h1, -⟩ := pub_idle mesh ep json n pre i hi hc
      refine .inr (.inl ⟨0, (registeredBy pre).length, ?_, by simp⟩)
      rw [pubRun_snoc]
      simp only [pubStep]
      rw [if_pos h1, pub_names]
      exact List.getElem?_set_self (by rw [pub_len]; exact hi)
    | snoc l e ih =>
      have ih := ih (pub_inv mesh ep json n pre l i hi hc)
      have hl := pub_len mesh ep json n (pre ++ .call i :: l)
      rw [show pre ++ PubEv.call i :: (l ++ [e]) = (pre ++ .call i :: l) ++ [e] by simp, pubRun_snoc, List.count_append]
      clear hok
      revert ih hl
      generalize pubRun mesh ep json n (pre ++ .call i :: l) = s
      intro ih hl
      by_cases he : e = .step i
      · subst he
        simp only [pubStep, List.count_singleton_self]
        rcases ih with ⟨r, h⟩ | ⟨pos, size, h, hle⟩ | ⟨pos, size, x, h, hle⟩
        · rw [h]; exact .inl ⟨r, h⟩
        · rw [h]
          dsimp only
          split
          · exact .inl ⟨_, List.getElem?_set_self (by omega)⟩
          · split
            · exact .inl ⟨_, List.getElem?_set_self (by omega)⟩
            · exact .inr (.inr ⟨_, _, _, List.getElem?_set_self (by omega), by omega⟩)
        · rw [h]
          dsimp only
          split
          · exact .inl ⟨_, List.getElem?_set_self (by omega)⟩
          · exact .inr (.inl ⟨_, _, List.getElem?_set_self (by omega), by omega⟩)
      · have hsame : ∀ p, s.thr[i]? = some p → p ≠ .idle → (pubStep mesh ep json s e).thr[i]? = some p := by
          intro p hp hne
          cases e with
          | register x => simp only [pubStep]; split <;> exact hp
          | call j =>
            simp only [pubStep]
            split
            · next hj =>
              have : j ≠ i := by rintro rfl; rw [hj] at hp; cases hp; exact hne rfl
              simp only [List.getElem?_set]
              rw [if_neg this]
              exact hp
            · exact hp
          | step j =>
            have hj : j ≠ i := by rintro rfl; exact he rfl
            simp only [pubStep]
            split
            · split
              · simp only [List.getElem?_set]; rw [if_neg hj]; exact hp
              · split <;> (simp only [List.getElem?_set]; rw [if_neg hj]; exact hp)
            · split <;> (simp only [List.getElem?_set]; rw [if_neg hj]; exact hp)
            · exact hp
        have hcnt : [e].count (.step i) = 0 := by
          rw [List.count_eq_zero]
          intro hm
          exact he (List.mem_singleton.1 hm).symm
        rw [hcnt]
        rcases ih with ⟨r, h⟩ | ⟨pos, size, h, hle⟩ | ⟨pos, size, x, h, hle⟩
        · exact .inl ⟨r, hsame _ h (by simp)⟩
        · exact .inr (.inl ⟨_, _, hsame _ h (by simp), hle⟩)
        · exact .inr (.inr ⟨_, _, _, hsame _ h (by simp), hle⟩)
  obtain ⟨p, hp, hok⟩ := pub_inv mesh ep json n pre post i hi hc
  rcases key post with h | ⟨pos, size, h, hle⟩ | ⟨pos, size, x, h, hle⟩
  · exact h
  · rw [h] at hp
    cases hp
    obtain ⟨rfl, h2, -⟩ := hok
    omega
  · rw [h] at hp
    cases hp
    obtain ⟨rfl, h2, -⟩ := hok
    have := (List.getElem?_eq_some_iff.1 h2).1
    omega

/-- a mesh that accepts everything -/
def exYes : Mesh := fun _ _ => .resp 200 (.object [(py "success", .bool true)])

theorem exYes_accepts : AcceptsAll exYes := fun _ _ _ => ⟨_, _, rfl⟩

/-- An interface is registered while another thread publishes: the second interface is left out, though it was registered
before. -/
def exPubLate : List PubEv :=
  [.register (py "a"), .register (py "b"), .call 0, .step 0, .step 0, .register (py "c"), .step 0]

theorem exPubLate_run : (pubRun exYes (py "services/publish") serviceNameJson 1 exPubLate).thr = [.over .changed] ∧
    (pubRun exYes (py "services/publish") serviceNameJson 1 exPubLate).posts = [(0, py "a")] := by
  decide +kernel

theorem C143_violated : ¬ C143_full := by
  intro h
  have := h exYes (py "services/publish") serviceNameJson 1 [.register (py "a"), .register (py "b")]
    [.step 0, .step 0, .register (py "c"), .step 0] 0 .changed exYes_accepts (by decide)
    (by show (pubRun exYes (py "services/publish") serviceNameJson 1 exPubLate).thr[0]? = _; rw [exPubLate_run.1]; rfl)
  cases this.1

/-- registering an interface again is harmless -/
example : (pubRun exYes (py "services/publish") serviceNameJson 2
    [.register (py "a"), .register (py "b"), .call 0, .step 0, .call 1, .step 0, .register (py "b"), .step 1, .step 0,
      .step 1, .step 0, .step 0]).thr = [.over .returned, .next 1 2] := by
  decide +kernel

/-! ## C144: assignments to `SERVICE_MAP` by several threads -/

/-- C144 as listed: an entry keeps its value until it is removed. -/
def C144_full : Prop :=
  ∀ (n : Nat) (evs evs' : List AssignEv) (k : PyStr) (v : SvcAddr), .pop k ∉ evs' →
    PyDict.get? (assignRun n evs).svc k = some v → PyDict.get? (assignRun n (evs ++ evs')).svc k = some v

/-- both threads look before either stores -/
theorem C144_violated : ¬ C144_full := by
  intro h
  have := h 2 [.call 0 (py "a") (.host (py "x")), .call 1 (py "a") meshAddress, .step 0, .step 1, .step 0] [.step 1]
    (py "a") (.host (py "x")) (by decide) (by decide +kernel)
  revert this
  decide +kernel

/-- the thread has found the key missing and will store -/
def Spec.storing (k : PyStr) (s : AssignSt) : Nat :=
  s.thr.countP fun p => match p with
    | .store k' _ => k' == k
    | _ => false

/-- how often the entry changes (other than being removed) while the events happen -/
def Spec.entryChanges (k : PyStr) (s : AssignSt) : List AssignEv → Nat
  | [] => 0
  | e :: l => (if PyDict.get? (assignStep s e).svc k = PyDict.get? s.svc k then 0 else 1) +
      entryChanges k (assignStep s e) l

theorem assignRun_snoc (n : Nat) (evs : List AssignEv) (e : AssignEv) :
    assignRun n (evs ++ [e]) = assignStep (assignRun n evs) e := by
  simp [assignRun, List.foldl_append]

theorem assign_nodup_step {s : AssignSt} (h : PyDict.NodupKeys s.svc) (e : AssignEv) :
    PyDict.NodupKeys (assignStep s e).svc := by
  cases e with
  | call i k v => simp only [assignStep]; split <;> exact h
  | step i =>
    simp only [assignStep]
    split
    · split <;> exact h
    · exact PyDict.nodup_set h _ _
    · exact h
  | pop k =>
    simp only [assignStep, svcPop]
    split
    · exact PyDict.nodup_erase h _
    · exact h

theorem assign_nodup (n : Nat) (evs : List AssignEv) : PyDict.NodupKeys (assignRun n evs).svc := by
  induction evs using snoc_induct with
  | nil => simp [assignRun, PyDict.NodupKeys]
  | snoc l e ih => rw [assignRun_snoc]; exact assign_nodup_step ih e

theorem countP_set {α : Type} (p : α → Bool) (l : List α) (i : Nat) (a b : α) (h : l[i]? = some b) :
    (l.set i a).countP p + (if p b then 1 else 0) = l.countP p + (if p a then 1 else 0) := by
  induction l generalizing i with
  | nil => cases h
  | cons x l ih =>
    cases i with
    | zero =>
      cases h
      simp only [List.set_cons_zero, List.countP_cons]
      omega
    | succ i =>
      have := ih i h
      simp only [List.set_cons_succ, List.countP_cons]
      omega

/-- what one event does to an entry and to the threads about to store it -/
theorem assign_step_key {s : AssignSt} (hd : PyDict.NodupKeys s.svc) (k : PyStr) (e : AssignEv) (hp : e ≠ .pop k) :
    (PyDict.get? (assignStep s e).svc k = PyDict.get? s.svc k ∧
      (storing k (assignStep s e) ≤ storing k s ∨ PyDict.get? s.svc k = none)) ∨
    ∃ i w, e = .step i ∧ s.thr[i]? = some (.store k w) ∧ PyDict.get? (assignStep s e).svc k = some w ∧
      storing k (assignStep s e) + 1 = storing k s := by
  cases e with
  | call i k' v =>
    refine .inl ?_
    simp only [assignStep]
    split
    · next h =>
      refine ⟨rfl, .inl ?_⟩
      have := countP_set (fun p => match p with | .store k'' _ => k'' == k | _ => false) s.thr i (.check k' v) .idle h
      simpa [storing] using Nat.le_of_eq this
    · exact ⟨rfl, .inl (Nat.le_refl _)⟩
  | step i =>
    simp only [assignStep]
    split
    · next k' v h =>
      split
      · refine .inl ⟨rfl, .inl ?_⟩
        have := countP_set (fun p => match p with | .store k'' _ => k'' == k | _ => false) s.thr i .idle (.check k' v) h
        simpa [storing] using Nat.le_of_eq this
      · next hc =>
        refine .inl ⟨rfl, ?_⟩
        by_cases hk : k' = k
        · subst hk
          refine .inr ?_
          simpa [PyDict.contains] using hc
        · refine .inl ?_
          have := countP_set (fun p => match p with | .store k'' _ => k'' == k | _ => false) s.thr i (.store k' v)
            (.check k' v) h
          simpa [storing, hk] using Nat.le_of_eq this
    · next k' v h =>
      have hcount := countP_set (fun p => match p with | .store k'' _ => k'' == k | _ => false) s.thr i .idle (.store k' v) h
      by_cases hk : k' = k
      · subst hk
        refine .inr ⟨i, v, rfl, h, ?_, ?_⟩
        · rw [PyDict.get?_set]; simp
        · simpa [storing] using hcount
      · refine .inl ⟨?_, .inl ?_⟩
        · rw [PyDict.get?_set]; simp [hk]
        · simpa [storing, hk] using Nat.le_of_eq hcount
    · exact .inl ⟨rfl, .inl (Nat.le_refl _)⟩
  | pop k' =>
    have hk : k' ≠ k := by rintro rfl; exact hp rfl
    refine .inl ⟨?_, .inl (Nat.le_refl _)⟩
    simp only [assignStep, svcPop]
    split
    · rw [PyDict.get?_erase hd]; simp [hk]
    · rfl

theorem assign_present {s : AssignSt} (hd : PyDict.NodupKeys s.svc) (k : PyStr) (evs : List AssignEv)
    (hp : AssignEv.pop k ∉ evs) {v : SvcAddr} (hv : PyDict.get? s.svc k = some v) :
    (PyDict.get? (evs.foldl assignStep s).svc k).isSome ∧
      entryChanges k s evs + storing k (evs.foldl assignStep s) ≤ storing k s := by
  induction evs generalizing s v with
  | nil => simp [hv, entryChanges]
  | cons e l ih =>
    have hp' : AssignEv.pop k ∉ l := fun h => hp (List.mem_cons_of_mem _ h)
    have he : e ≠ .pop k := by rintro rfl; simp at hp
    simp only [List.foldl_cons, entryChanges]
    rcases assign_step_key hd k e he with ⟨h1, h2⟩ | ⟨i, w, rfl, h1, h2, h3⟩
    · obtain ⟨h3, h4⟩ := ih (assign_nodup_step hd e) hp' (h1.trans hv)
      refine ⟨h3, ?_⟩
      rw [if_pos h1]
      rcases h2 with h2 | h2
      · omega
      · rw [hv] at h2; cases h2
    · obtain ⟨h4, h5⟩ := ih (assign_nodup_step hd (.step i)) hp' h2
      refine ⟨h4, ?_⟩
      split <;> omega

/-- C144, what holds in every case: while an entry is not removed it stays present, and it changes at most as often as
there are threads that had found it missing and have not stored yet. Missing: those changes. -/
theorem C144_few_partial (n : Nat) (evs evs' : List AssignEv) (k : PyStr) (v : SvcAddr) (hp : AssignEv.pop k ∉ evs')
    (hv : PyDict.get? (assignRun n evs).svc k = some v) :
    (PyDict.get? (assignRun n (evs ++ evs')).svc k).isSome ∧
      entryChanges k (assignRun n evs) evs' ≤ storing k (assignRun n evs) := by
  have := assign_present (assign_nodup n evs) k evs' hp hv
  rw [← show assignRun n (evs ++ evs') = evs'.foldl assignStep (assignRun n evs) by simp [assignRun, List.foldl_append]] at this
  exact ⟨this.1, by omega⟩

/-- C144 holds from any moment on at which no thread is about to store. -/
theorem C144_settled_partial (n : Nat) (evs evs' : List AssignEv) (k : PyStr) (v : SvcAddr) (hp : AssignEv.pop k ∉ evs')
    (hv : PyDict.get? (assignRun n evs).svc k = some v) (hs : ∀ w, AssignPC.store k w ∉ (assignRun n evs).thr) :
    PyDict.get? (assignRun n (evs ++ evs')).svc k = some v := by
  have h0 : storing k (assignRun n evs) = 0 := by
    unfold storing
    rw [List.countP_eq_zero]
    intro p hm hk
    split at hk
    · next k' w =>
      have : k' = k := by simpa using hk
      subst this
      exact hs w hm
    · cases hk
  have key : ∀ (l : List AssignEv) (s : AssignSt), PyDict.NodupKeys s.svc → AssignEv.pop k ∉ l → storing k s = 0 →
      PyDict.get? s.svc k = some v → PyDict.get? (l.foldl assignStep s).svc k = some v := by
    intro l
    induction l with
    | nil => intro s _ _ _ h; exact h
    | cons e l ih =>
      intro s hd hp h0 hv
      have he : e ≠ .pop k := by rintro rfl; simp at hp
      rcases assign_step_key hd k e he with ⟨h1, h2⟩ | ⟨i, w, rfl, h1, h2, h3⟩
      · refine ih _ (assign_nodup_step hd e) (fun h => hp (List.mem_cons_of_mem _ h)) ?_ (h1.trans hv)
        rcases h2 with h2 | h2
        · omega
        · rw [hv] at h2; cases h2
      · omega
  have := key evs' (assignRun n evs) (assign_nodup n evs) hp h0 hv
  rw [← show assignRun n (evs ++ evs') = evs'.foldl assignStep (assignRun n evs) by simp [assignRun, List.foldl_append]] at this
  exact this

/-- C144 holds if at every moment at most one thread is between looking and storing. -/
theorem C144_alone_partial (n : Nat) (evs evs' : List AssignEv) (k : PyStr) (v : SvcAddr) (hp : AssignEv.pop k ∉ evs')
    (hv : PyDict.get? (assignRun n evs).svc k = some v)
    (ha : ∀ pre, pre <+: evs → ∀ (i j : Nat) (w w' : SvcAddr), (assignRun n pre).thr[i]? = some (.store k w) →
      (assignRun n pre).thr[j]? = some (.store k w') → i = j) :
    PyDict.get? (assignRun n (evs ++ evs')).svc k = some v := by
  have fresh : ∀ (i : Nat) (p : AssignPC), p ≠ .idle → (assignRun n []).thr[i]? ≠ some p := by
    intro i p hne h
    have := List.mem_of_getElem? h
    exact hne (List.mem_replicate.1 this).2
  have key : ∀ evs : List AssignEv, (∀ pre, pre <+: evs → ∀ (i j : Nat) (w w' : SvcAddr),
      (assignRun n pre).thr[i]? = some (.store k w) → (assignRun n pre).thr[j]? = some (.store k w') → i = j) →
      ∀ (i : Nat) (w : SvcAddr), (assignRun n evs).thr[i]? = some (.store k w) →
        PyDict.get? (assignRun n evs).svc k = none := by
    intro evs
    induction evs using snoc_induct with
    | nil =>
      intro _ i w h
      exact absurd h (fresh i _ (by simp))
    | snoc l e ih =>
      intro ha i w h
      have ih := ih fun pre hpre => ha pre (hpre.trans (List.prefix_append _ _))
      have hal := ha l (List.prefix_append _ _)
      have hnd := assign_nodup n l
      have hone := ha _ (List.prefix_refl _)
      rw [assignRun_snoc] at h hone ⊢
      revert h ih hal hnd hone
      generalize assignRun n l = s
      intro h ih hal hnd hone
      cases e with
      | call j k' v' =>
        simp only [assignStep] at h ⊢
        have hs : ∀ c : Prop, ∀ _ : Decidable c, PyDict.get? (if c then { s with thr := s.thr.set j (.check k' v') } else s).svc k = PyDict.get? s.svc k := by
          intro c _; split <;> rfl
        rw [hs]
        split at h
        · rw [List.getElem?_set] at h
          split at h
          · split at h <;> cases h
          · exact ih i w h
        · exact ih i w h
      | pop k' =>
        have := ih i w h
        simp only [assignStep, svcPop]
        split
        · rw [PyDict.get?_erase hnd]
          split
          · rfl
          · exact this
        · exact this
      | step j =>
        simp only [assignStep] at h ⊢
        split at h
        · next k' v' hj =>
          split at h
          · rw [List.getElem?_set] at h
            split at h
            · split at h <;> cases h
            · next hc _ => simp only [hc, if_true]; exact ih i w h
          · next hc =>
            rw [List.getElem?_set] at h
            split at h
            · split at h
              · cases h
                rw [if_neg hc]
                simpa [PyDict.contains] using hc
              · cases h
            · rw [if_neg hc]; exact ih i w h
        · next k' v' hj =>
          rw [List.getElem?_set] at h
          split at h
          · split at h <;> cases h
          · next hne =>
            by_cases hk : k' = k
            · subst hk
              exact absurd (hal j i v' w hj h) hne
            · simp only [PyDict.get?_set]
              rw [if_neg hk]
              exact ih i w h
        · exact ih i w h
  refine C144_settled_partial n evs evs' k v hp hv fun w hm => ?_
  obtain ⟨i, hi⟩ := List.mem_iff_getElem?.1 hm
  have := key evs ha i w hi
  rw [hv] at this
  cases this

/-- C144 holds if all assignments to the key are of the same address, as those of `subscribe` are (base.py:68). -/
theorem C144_same_partial (n : Nat) (evs evs' : List AssignEv) (k : PyStr) (v a : SvcAddr) (hp : AssignEv.pop k ∉ evs')
    (hv : PyDict.get? (assignRun n evs).svc k = some v) (ha : ∀ i w, AssignEv.call i k w ∈ evs ++ evs' → w = a) :
    PyDict.get? (assignRun n (evs ++ evs')).svc k = some v := by
  have fresh : ∀ (i : Nat) (p : AssignPC), p ≠ .idle → (assignRun n []).thr[i]? ≠ some p := by
    intro i p hne h
    have := List.mem_of_getElem? h
    exact hne (List.mem_replicate.1 this).2
  have key : ∀ evs : List AssignEv, (∀ i w, AssignEv.call i k w ∈ evs → w = a) →
      (∀ (i : Nat) (w : SvcAddr), (assignRun n evs).thr[i]? = some (.check k w) ∨
        (assignRun n evs).thr[i]? = some (.store k w) → w = a) ∧
      ∀ w, PyDict.get? (assignRun n evs).svc k = some w → w = a := by
    intro evs
    induction evs using snoc_induct with
    | nil =>
      intro _
      refine ⟨fun i w h => ?_, fun w h => ?_⟩
      · rcases h with h | h
        · exact absurd h (fresh i _ (by simp))
        · exact absurd h (fresh i _ (by simp))
      · simp [assignRun] at h
    | snoc l e ih =>
      intro hc
      obtain ⟨h1, h2⟩ := ih fun i w h => hc i w (List.mem_append_left _ h)
      have hnd := assign_nodup n l
      have hce : ∀ i w, e = .call i k w → w = a := fun i w h => hc i w (by rw [h]; simp)
      rw [assignRun_snoc]
      revert h1 h2 hnd
      generalize assignRun n l = s
      intro h1 h2 hnd
      have other : ∀ (j : Nat) (p : AssignPC), (∀ w, p = .check k w ∨ p = .store k w → w = a) →
          ∀ (i : Nat) (w : SvcAddr), (s.thr.set j p)[i]? = some (.check k w) ∨ (s.thr.set j p)[i]? = some (.store k w) → w = a := by
        intro j p hpa i w h
        rw [List.getElem?_set] at h
        split at h
        · split at h
          · rcases h with h | h
            · exact hpa w (.inl (Option.some.inj h))
            · exact hpa w (.inr (Option.some.inj h))
          · rcases h with h | h <;> cases h
        · exact h1 i w h
      cases e with
      | call j k' v' =>
        simp only [assignStep]
        split
        · refine ⟨other j _ fun w h => ?_, h2⟩
          rcases h with h | h
          · cases h; exact hce j _ rfl
          · cases h
        · exact ⟨h1, h2⟩
      | pop k' =>
        refine ⟨h1, fun w h => ?_⟩
        simp only [assignStep, svcPop] at h
        split at h
        · rw [PyDict.get?_erase hnd] at h
          split at h
          · cases h
          · exact h2 w h
        · exact h2 w h
      | step j =>
        simp only [assignStep]
        split
        · next k' v' hj =>
          split
          · exact ⟨other j _ (fun w h => by rcases h with h | h <;> cases h), h2⟩
          · refine ⟨other j _ fun w h => ?_, h2⟩
            rcases h with h | h
            · cases h
            · cases h; exact h1 j _ (.inl hj)
        · next k' v' hj =>
          refine ⟨other j _ (fun w h => by rcases h with h | h <;> cases h), fun w h => ?_⟩
          rw [PyDict.get?_set] at h
          split at h
          · next hk =>
            cases h
            subst hk
            exact h1 j _ (.inr hj)
          · exact h2 w h
        · exact ⟨h1, h2⟩
  have h1 := (key evs fun i w h => ha i w (List.mem_append_left _ h)).2 v hv
  obtain ⟨w, hw⟩ := Option.isSome_iff_exists.1 (C144_few_partial n evs evs' k v hp hv).1
  rw [hw, (key _ ha).2 w hw, h1]

/-- C144: an entry always has a value that some assignment has stored and returned from. -/
theorem C144_value (n : Nat) (evs : List AssignEv) (k : PyStr) (w : SvcAddr)
    (h : PyDict.get? (assignRun n evs).svc k = some w) : ∃ i, (i, k, w, true) ∈ (assignRun n evs).ends := by
  induction evs using snoc_induct generalizing w with
  | nil => simp [assignRun] at h
  | snoc l e ih =>
    have hnd := assign_nodup n l
    rw [assignRun_snoc] at h ⊢
    revert ih h hnd
    generalize assignRun n l = s
    intro ih h hnd
    cases e with
    | call j k' v' =>
      simp only [assignStep] at h ⊢
      split at h
      · next hc => rw [if_pos hc]; exact ih w h
      · next hc => rw [if_neg hc]; exact ih w h
    | pop k' =>
      simp only [assignStep, svcPop] at h ⊢
      split at h
      · rw [PyDict.get?_erase hnd] at h
        split at h
        · cases h
        · exact ih w h
      · exact ih w h
    | step j =>
      revert h
      simp only [assignStep]
      split
      · split
        · intro h
          obtain ⟨i, hi⟩ := ih w h
          exact ⟨i, List.mem_append_left _ hi⟩
        · exact ih w
      · next k' v' hj =>
        intro h
        rw [PyDict.get?_set] at h
        split at h
        · next hk =>
          cases h
          subst hk
          exact ⟨j, by simp⟩
        · obtain ⟨i, hi⟩ := ih w h
          exact ⟨i, List.mem_append_left _ hi⟩
      · exact ih w

/-- C144: an assignment raises `KeyError` only at a moment when the key is there, and changes nothing. -/
theorem C144_keyerror (n : Nat) (evs : List AssignEv) (e : AssignEv) (i : Nat) (k : PyStr) (v : SvcAddr)
    (h : (assignRun n (evs ++ [e])).ends = (assignRun n evs).ends ++ [(i, k, v, false)]) :
    (∃ w, PyDict.get? (assignRun n evs).svc k = some w) ∧ (assignRun n (evs ++ [e])).svc = (assignRun n evs).svc := by
  rw [assignRun_snoc] at h ⊢
  revert h
  generalize assignRun n evs = s
  intro h
  have hno : s.ends ≠ s.ends ++ [(i, k, v, false)] := by
    intro hh
    have := congrArg List.length hh
    simp at this
  cases e with
  | call j k' v' =>
    simp only [assignStep] at h
    split at h <;> exact absurd h hno
  | pop k' => exact absurd h hno
  | step j =>
    revert h
    simp only [assignStep]
    split
    · next k' v' hj =>
      split
      · next hc =>
        intro h
        have := List.append_cancel_left h
        cases this
        exact ⟨Option.isSome_iff_exists.1 hc, rfl⟩
      · intro h; exact absurd h hno
    · intro h
      have := List.append_cancel_left h
      simp at this
    · intro h; exact absurd h hno

/-- two threads subscribe to the same interface at the same time while an earlier assignment is settled -/
example : PyDict.get? (assignRun 3 [.call 0 (py "a") (.host (py "x")), .step 0, .step 0, .call 1 (py "a") meshAddress,
    .call 2 (py "a") meshAddress, .step 1, .step 2]).svc (py "a") = some (.host (py "x")) :=
  C144_settled_partial 3 [.call 0 (py "a") (.host (py "x")), .step 0, .step 0]
    [.call 1 (py "a") meshAddress, .call 2 (py "a") meshAddress, .step 1, .step 2] (py "a") (.host (py "x"))
    (by decide) (by decide +kernel) (by
      have : (assignRun 3 [.call 0 (py "a") (.host (py "x")), .step 0, .step 0]).thr = [.idle, .idle, .idle] := by
        decide +kernel
      rw [this]
      simp)

end Bolt
