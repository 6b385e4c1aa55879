import Verif.Model.DigitLimit
import Verif.Props.RpcIdText
/-!
# C186: rpc ids of received contexts, with the interpreter's limit for decimal digits
-/
namespace Bolt
open Spec

/-! ## numbers and their digits -/

theorem natStr_length_lim (n lim : Nat) (hl : 1 ≤ lim) : (natStr n).length ≤ lim ↔ n < 10 ^ lim := by
  induction n using natStr_induct generalizing lim with
  | h1 n h =>
    rw [natStr_lt h]
    have : 10 ^ 1 ≤ 10 ^ lim := Nat.pow_le_pow_right (by decide) hl
    simp only [List.length_singleton]
    omega
  | h2 n h ih =>
    rw [natStr_ge h, List.length_append, List.length_singleton]
    cases lim with
    | zero => omega
    | succ m =>
      cases m with
      | zero =>
        have : (natStr (n / 10)).length ≠ 0 := fun e => natStr_ne_nil _ (List.length_eq_zero_iff.1 e)
        omega
      | succ m =>
        have := ih (m + 1) (by omega)
        rw [Nat.pow_succ]
        omega

/-- the number of digits -/
def digitCount (s : PyStr) : Nat := s.countP fun c => (digitVal c).isSome

theorem digitCount_append (s t : PyStr) : digitCount (s ++ t) = digitCount s + digitCount t := List.countP_append

theorem digitCount_one {c d : Nat} (h : DigitOf c d) : digitCount [c] = 1 := by
  simp [digitCount, digitVal_iff.2 h]

theorem digitRun_lt {s : PyStr} {n : Nat} (h : DigitRun s n) : n < 10 ^ digitCount s := by
  induction h with
  | one c d h =>
    rw [digitCount_one h]
    obtain ⟨-, -, -, hd⟩ := h
    omega
  | next s n c d hs h ih =>
    rw [digitCount_append, digitCount_one h, Nat.pow_succ]
    obtain ⟨-, -, -, hd⟩ := h
    omega
  | under s n c d hs h ih =>
    have e : digitCount [95, c] = 1 := by simp [digitCount, digitVal_iff.2 h, digitVal_under]
    rw [digitCount_append, e, Nat.pow_succ]
    obtain ⟨-, -, -, hd⟩ := h
    omega

/-- what `int()` gives under the limit -/
theorem pyIntL_lt {lim : Nat} {s : PyStr} {i : Int} (h : pyIntL lim s = some i) : pyInt s = some i ∧ i.natAbs < 10 ^ lim := by
  unfold pyIntL at h
  split at h
  · cases h
  · next hc =>
    refine ⟨h, ?_⟩
    obtain ⟨pre, sign, body, post, n, rfl, -, -, hr, hi⟩ := (C154_int s i).1 h
    have h1 := digitRun_lt hr
    have h2 : digitCount body ≤ lim := by
      have : digitCount (pre ++ (sign ++ body) ++ post) ≤ lim := Nat.le_of_not_lt hc
      simp only [digitCount_append] at this
      omega
    have h3 : 10 ^ digitCount body ≤ 10 ^ lim := Nat.pow_le_pow_right (by decide) h2
    omega

theorem digitVal_latin {c : Nat} (h : 48 ≤ c ∧ c ≤ 57) : (digitVal c).isSome = true := by
  rw [digitVal_iff.2 (⟨48, by decide, by omega, by omega⟩ : DigitOf c (c - 48))]
  rfl

theorem digitCount_natStr (n : Nat) : digitCount (natStr n) = (natStr n).length := by
  unfold digitCount
  rw [List.countP_eq_length]
  exact fun c hc => digitVal_latin (natStr_digits n c hc)

theorem digitCount_intStr (i : Int) : digitCount (intStr i) = (natStr i.natAbs).length := by
  unfold intStr
  split
  · have : digitVal 45 = none := by
      cases h : digitVal 45 with
      | none => rfl
      | some d => exact absurd rfl (digit_not_sign (digitVal_iff.1 h)).2.1
    rw [show (45 :: natStr i.natAbs : PyStr) = [45] ++ natStr i.natAbs from rfl, digitCount_append, digitCount_natStr]
    simp [digitCount, this]
  · exact digitCount_natStr _

theorem intStrL_ok {lim : Nat} (hl : 1 ≤ lim) {i : Int} (h : i.natAbs < 10 ^ lim) : intStrL lim i = .ok (intStr i) := by
  unfold intStrL
  rw [if_neg]
  have := (natStr_length_lim i.natAbs lim hl).2 h
  omega

theorem intStrL_error {lim : Nat} (hl : 1 ≤ lim) {i : Int} (h : ¬ i.natAbs < 10 ^ lim) : intStrL lim i = .error .valueError := by
  unfold intStrL
  rw [if_pos]
  have := natStr_length_lim i.natAbs lim hl
  omega

theorem pyIntL_intStr {lim : Nat} (hl : 1 ≤ lim) {i : Int} (h : i.natAbs < 10 ^ lim) : pyIntL lim (intStr i) = some i := by
  unfold pyIntL
  rw [if_neg, pyInt_intStr]
  have := (natStr_length_lim i.natAbs lim hl).2 h
  have e := digitCount_intStr i
  unfold digitCount at e
  omega

/-! ## rpc ids -/

namespace Spec

/-- all the numbers of an rpc id have at most `lim` digits -/
def Short (lim : Nat) (segs : List Seg) : Prop := ∀ i, Seg.int i ∈ segs → i.natAbs < 10 ^ lim

end Spec

/-- an rpc id as `RpcId()` makes it -/
structure Made (lim : Nat) (segs : List Seg) (j : Int) : Prop where
  last : segs.getLast? = some (.int j)
  text : ∀ s, Seg.str s ∈ segs → pyIntL lim s = none
  short : Short lim segs

theorem mapM_ok {f : Seg → Except PyExc PyStr} {g : Seg → PyStr} : ∀ {l : List Seg}, (∀ x ∈ l, f x = .ok (g x)) →
    l.mapM f = .ok (l.map g)
  | [], _ => rfl
  | x :: l, h => by
    rw [List.mapM_cons, h x (by simp), mapM_ok fun y hy => h y (by simp [hy])]
    rfl

theorem mapM_error {f : Seg → Except PyExc PyStr} {e : PyExc} : ∀ {l : List Seg}, (∀ x ∈ l, f x = .error e ∨ ∃ y, f x = .ok y) →
    (∃ x ∈ l, f x = .error e) → l.mapM f = .error e
  | [], _, h => by obtain ⟨x, hx, -⟩ := h; cases hx
  | x :: l, h, hx => by
    rw [List.mapM_cons]
    rcases h x (by simp) with h1 | ⟨y, h1⟩
    · rw [h1]; rfl
    · rw [h1]
      have : l.mapM f = .error e := by
        refine mapM_error (fun z hz => h z (by simp [hz])) ?_
        obtain ⟨z, hz, h2⟩ := hx
        rcases List.mem_cons.1 hz with rfl | hz
        · rw [h1] at h2; cases h2
        · exact ⟨z, hz, h2⟩
      show (l.mapM f >>= fun ws => pure (y :: ws)) = _
      rw [this]
      rfl

/-- C186: the text of an rpc id exists exactly if its numbers are short enough, and is then the text without the limit -/
theorem C186_text (lim : Nat) (hl : 1 ≤ lim) (segs : List Seg) :
    (Short lim segs → rpcStrL lim segs = .ok (rpcStr segs)) ∧ (¬ Short lim segs → rpcStrL lim segs = .error .valueError) := by
  constructor
  · intro h
    unfold rpcStrL rpcStr
    rw [mapM_ok (g := Seg.toStr)]
    · rfl
    · intro x hx
      cases x with
      | str s => rfl
      | int i => exact intStrL_ok hl (h i hx)
  · intro h
    unfold rpcStrL
    rw [mapM_error (e := .valueError)]
    · rfl
    · intro x hx
      cases x with
      | str s => exact .inr ⟨s, rfl⟩
      | int i =>
        by_cases hi : i.natAbs < 10 ^ lim
        · exact .inr ⟨_, intStrL_ok hl hi⟩
        · exact .inl (intStrL_error hl hi)
    · obtain ⟨i, hi⟩ := Classical.not_forall.1 h
      obtain ⟨h1, h2⟩ := Classical.not_imp.1 hi
      exact ⟨.int i, h1, intStrL_error hl h2⟩

theorem transL_str (lim : Nat) (t : PyStr) :
    Seg.transL lim (.str t) = match pyIntL lim t with | some i => .int i | none => .str t := rfl

/-- the constructor, applied to parts that are short -/
theorem rpcInitL_made {lim : Nat} {args segs : List Seg} (hs : Short lim args) (hne : args ≠ [])
    (h : rpcInitL lim args = .ok segs) : ∃ j, Made lim segs j := by
  unfold rpcInitL at h
  split at h
  · exact absurd rfl hne
  · dsimp only at h
    split at h
    · next j hj =>
      cases h
      refine ⟨j, hj, ?_, ?_⟩
      · intro s hm
        obtain ⟨x, hx, e⟩ := List.mem_map.1 hm
        cases x with
        | int i => cases e
        | str t =>
          rw [transL_str] at e
          cases hp : pyIntL lim t with
          | some i => rw [hp] at e; cases e
          | none => rw [hp] at e; cases e; exact hp
      · intro i hm
        obtain ⟨x, hx, e⟩ := List.mem_map.1 hm
        cases x with
        | int i' => cases e; exact hs _ hx
        | str t =>
          rw [transL_str] at e
          cases hp : pyIntL lim t with
          | some i => rw [hp] at e; cases e; exact (pyIntL_lt hp).2
          | none => rw [hp] at e; cases e
    · cases h

/-- applied to the parts of an id and one more number -/
theorem rpcInitL_extend {lim : Nat} {segs : List Seg} (ht : ∀ s, Seg.str s ∈ segs → pyIntL lim s = none) (k : Int) :
    rpcInitL lim (segs ++ [.int k]) = .ok (segs ++ [.int k]) := by
  have e : (segs ++ [Seg.int k]).map (Seg.transL lim) = segs ++ [.int k] := by
    rw [List.map_append]
    congr 1
    conv => rhs; rw [← List.map_id segs]
    apply List.map_congr_left
    intro x hx
    cases x with
    | int i => rfl
    | str s => simp [Seg.transL, ht s hx]
  unfold rpcInitL
  split
  · next h => exact absurd h (by simp)
  · dsimp only
    rw [e]
    simp

theorem split_no_dot : ∀ (s : PyStr), ∀ w ∈ pySplit 46 s, 46 ∉ w := by
  intro s
  induction s with
  | nil => simp [pySplit]
  | cons c s ih =>
    intro w hw
    unfold pySplit at hw
    split at hw
    · rcases List.mem_cons.1 hw with rfl | hw
      · simp
      · exact ih w hw
    · next hc =>
      split at hw
      · cases List.mem_singleton.1 hw
        simpa using fun e => hc e.symm
      · next x xs hx =>
        rcases List.mem_cons.1 hw with rfl | hw
        · have := ih x (by rw [hx]; simp)
          simp only [List.mem_cons, not_or]
          exact ⟨fun e => hc e.symm, this⟩
        · exact ih w (by rw [hx]; simp [hw])

/-- C186, received ids: the rpc id made from any text a peer sends has a text, with which the same id is made again. So what
the listener does with the context of a request (aio_listener.py:138, 168) never fails because of the limit. -/
theorem C186_received (lim : Nat) (hl : 1 ≤ lim) (s : PyStr) (segs : List Seg) (h : receivedL lim s = .ok segs) :
    rpcStrL lim segs = .ok (rpcStr segs) ∧ receivedL lim (rpcStr segs) = .ok segs := by
  have hne : (pySplit 46 s).map Seg.str ≠ [] := by
    simpa using pySplit_ne_nil 46 s
  obtain ⟨j, hm⟩ := rpcInitL_made (lim := lim) (args := (pySplit 46 s).map Seg.str)
    (by intro i hi; simp at hi) hne h
  refine ⟨(C186_text lim hl segs).1 hm.short, ?_⟩
  -- no part has a dot
  have hdot : ∀ x, Seg.str x ∈ segs → 46 ∉ x := by
    intro x hx
    unfold receivedL rpcInitL at h
    split at h
    · next e => exact absurd e hne
    · dsimp only at h
      split at h
      · cases h
        obtain ⟨y, hy, e⟩ := List.mem_map.1 hx
        obtain ⟨w, hw, rfl⟩ := List.mem_map.1 hy
        rw [transL_str] at e
        cases hp : pyIntL lim w with
        | some i => rw [hp] at e; cases e
        | none => rw [hp] at e; cases e; exact split_no_dot s _ hw
      · cases h
  have hsegs : segs ≠ [] := by
    intro e
    rw [e] at hm
    cases hm.last
  have hsplit : pySplit 46 (rpcStr segs) = segs.map Seg.toStr := by
    refine pySplit_pyJoin (by simpa using hsegs) ?_
    intro w hw
    obtain ⟨x, hx, rfl⟩ := List.mem_map.1 hw
    cases x with
    | int i => exact intStr_no_dot i
    | str t => exact hdot t hx
  have hmap : ((pySplit 46 (rpcStr segs)).map Seg.str).map (Seg.transL lim) = segs := by
    rw [hsplit, List.map_map, List.map_map]
    conv => rhs; rw [← List.map_id segs]
    apply List.map_congr_left
    intro x hx
    cases x with
    | int i =>
      show Seg.transL lim (.str (intStr i)) = .int i
      simp [Seg.transL, pyIntL_intStr hl (hm.short i hx)]
    | str t =>
      show Seg.transL lim (.str t) = .str t
      simp [Seg.transL, hm.text t hx]
  unfold receivedL rpcInitL
  split
  · next e => exact absurd e (by simpa using pySplit_ne_nil 46 (rpcStr segs))
  · dsimp only
    rw [hmap, hm.last]

/-- C186, ordinary ids: as long as no part of the text has more digits than the limit, the id is the one of the model
without a limit (to which C19-C26, C88, C132 and C154 refer). -/
theorem C186_ordinary (lim : Nat) (s : PyStr) (h : ∀ w ∈ pySplit 46 s, digitCount w ≤ lim) :
    receivedL lim s = rpcInit ((pySplit 46 s).map Seg.str) := by
  have e : ((pySplit 46 s).map Seg.str).map (Seg.transL lim) = ((pySplit 46 s).map Seg.str).map Seg.trans := by
    rw [List.map_map, List.map_map]
    apply List.map_congr_left
    intro w hw
    have := h w hw
    unfold digitCount at this
    simp only [Function.comp, Seg.transL, Seg.trans, pyIntL, if_neg (Nat.not_lt.2 this)]
    cases pyInt w <;> rfl
  unfold receivedL rpcInitL rpcInit
  cases hx : (pySplit 46 s).map Seg.str with
  | nil => rfl
  | cons a l =>
    dsimp only
    rw [← hx, e]
    rfl

/-- C186 as listed: whatever id a peer sends, every id derived from it has a text, so that it can be sent on. -/
def C186_full : Prop :=
  ∀ (lim : Nat) (s : PyStr) (segs segs' : List Seg) (steps : List (Option Nat)), 640 ≤ lim → receivedL lim s = .ok segs →
    (∀ k, some k ∈ steps → k < 10 ^ lim) → deriveL lim segs steps = .ok segs' → ∃ t, rpcStrL lim segs' = .ok t

theorem dropLast_snoc {l : List Seg} {x : Seg} (h : l.getLast? = some x) : l = l.dropLast ++ [x] := by
  obtain ⟨ys, rfl⟩ := List.getLast?_eq_some_iff.1 h
  simp

/-- one derivation after the other, as long as no number comes to the limit -/
theorem derive_made {lim : Nat} (steps : List (Option Nat)) (hk : ∀ k, some k ∈ steps → k + steps.length < 10 ^ lim) :
    ∀ {segs : List Seg} {j : Int}, Made lim segs j → j.natAbs + steps.length < 10 ^ lim →
      ∃ segs' j', deriveL lim segs steps = .ok segs' ∧ Made lim segs' j' := by
  induction steps with
  | nil => intro segs j hm _; exact ⟨segs, j, rfl, hm⟩
  | cons st more ih =>
    intro segs j hm hj
    simp only [List.length_cons] at hk hj
    have hk' : ∀ k, some k ∈ more → k + more.length < 10 ^ lim := by
      intro k hk1
      have := hk k (List.mem_cons_of_mem _ hk1)
      omega
    have ext : ∀ (l : List Seg) (k : Int), (∀ x ∈ l, x ∈ segs) → k.natAbs + more.length < 10 ^ lim → Made lim (l ++ [.int k]) k := by
      intro l k hl hk1
      refine ⟨by simp, ?_, ?_⟩
      · intro s hs
        rcases List.mem_append.1 hs with hs | hs
        · exact hm.text s (hl _ hs)
        · cases List.mem_singleton.1 hs
      · intro i hi
        rcases List.mem_append.1 hi with hi | hi
        · exact hm.short i (hl _ hi)
        · cases List.mem_singleton.1 hi
          omega
    cases st with
    | some k =>
      have h1 := hk k (by simp)
      have hmk := ext segs k (fun _ => id) (by omega)
      obtain ⟨segs', j', h2, h3⟩ := ih hk' hmk (by omega)
      refine ⟨segs', j', ?_, h3⟩
      unfold deriveL
      rw [rpcInitL_extend hm.text]
      exact h2
    | none =>
      have hmk := ext segs.dropLast (j + 1) (fun _ h => List.dropLast_subset _ h) (by omega)
      obtain ⟨segs', j', h2, h3⟩ := ih hk' hmk (by omega)
      refine ⟨segs', j', ?_, h3⟩
      unfold deriveL lastPlusOne
      rw [hm.last]
      show (rpcInitL lim (segs.dropLast ++ [.int (j + 1)]) >>= fun s => deriveL lim s more) = _
      rw [rpcInitL_extend fun s hs => hm.text s (List.dropLast_subset _ hs)]
      exact h2

/-- C186, what holds: ids derived from a received one have a text as long as the last number of the received id, and the
numbers of the children, stay below 10 to the power of the limit by as much as there are derivations. Missing: the largest
numbers (`C186_always`). -/
theorem C186_derived_partial (lim : Nat) (hl : 1 ≤ lim) (s : PyStr) (segs : List Seg) (j : Int) (steps : List (Option Nat))
    (h : receivedL lim s = .ok segs) (hlast : segs.getLast? = some (.int j)) (hj : j.natAbs + steps.length < 10 ^ lim)
    (hk : ∀ k, some k ∈ steps → k + steps.length < 10 ^ lim) :
    ∃ segs', deriveL lim segs steps = .ok segs' ∧ rpcStrL lim segs' = .ok (rpcStr segs') := by
  obtain ⟨j0, hm⟩ := rpcInitL_made (lim := lim) (args := (pySplit 46 s).map Seg.str)
    (by intro i hi; simp at hi) (by simpa using pySplit_ne_nil 46 s) h
  have e := hm.last
  rw [hlast] at e
  cases e
  obtain ⟨segs', j', h1, h2⟩ := derive_made steps hk hm hj
  exact ⟨segs', h1, (C186_text lim hl segs').1 h2.short⟩

theorem digitsVal_nines : ∀ n acc, digitsVal acc (List.replicate n 57) + 1 = (acc + 1) * 10 ^ n := by
  intro n
  induction n with
  | zero => intro acc; simp [digitsVal]
  | succ n ih =>
    intro acc
    have := ih (acc * 10 + (57 - 48))
    rw [List.replicate_succ]
    show digitsVal (acc * 10 + (57 - 48)) (List.replicate n 57) + 1 = _
    rw [this, Nat.pow_succ]
    have e : acc * 10 + (57 - 48) + 1 = (acc + 1) * 10 := by omega
    rw [e, Nat.mul_assoc, Nat.mul_comm 10]

/-- as many nines as the limit allows -/
theorem nines_received (lim : Nat) (hl : 1 ≤ lim) : receivedL lim (List.replicate lim 57) = .ok [.int ((10 ^ lim - 1 : Nat) : Int)] := by
  have hdig : ∀ c ∈ List.replicate lim 57, 48 ≤ c ∧ c ≤ 57 := by
    intro c hc
    have := (List.mem_replicate.1 hc).2
    omega
  have hne : List.replicate lim 57 ≠ [] := by simp; omega
  have hval : digitsVal 0 (List.replicate lim 57) = 10 ^ lim - 1 := by
    have := digitsVal_nines lim 0
    simp only [Nat.zero_add, Nat.one_mul] at this
    omega
  have hint : pyInt (List.replicate lim 57) = some ((10 ^ lim - 1 : Nat) : Int) := by
    unfold pyInt
    rw [pyStrip_of_no_space fun c hc => isPySpace_digit (hdig c hc)]
    cases lim with
    | zero => omega
    | succ m =>
      rw [List.replicate_succ]
      simp only [show (57 : Nat) ≠ 45 by decide, show (57 : Nat) ≠ 43 by decide, if_false]
      rw [← List.replicate_succ, parseDigits_digits _ hdig hne, hval]
      rfl
  have hL : pyIntL lim (List.replicate lim 57) = some ((10 ^ lim - 1 : Nat) : Int) := by
    unfold pyIntL
    rw [if_neg, hint]
    have := List.countP_le_length (l := List.replicate lim 57) (p := fun c => (digitVal c).isSome)
    rw [List.length_replicate] at this
    omega
  have hs : pySplit 46 (List.replicate lim 57) = [List.replicate lim 57] := by
    refine pySplit_no_sep ?_
    intro h
    have := hdig 46 h
    omega
  unfold receivedL rpcInitL
  rw [hs]
  simp [Seg.transL, hL]

/-- What happens at the limit, always: a peer that sends as many nines as the limit allows makes a context whose
follow-ups cannot be sent on. -/
theorem C186_always (lim : Nat) (hl : 1 ≤ lim) : ∃ segs segs', receivedL lim (List.replicate lim 57) = .ok segs ∧
    deriveL lim segs [none] = .ok segs' ∧ rpcStrL lim segs' = .error .valueError := by
  have hpos : 0 < 10 ^ lim := Nat.pow_pos (by decide)
  refine ⟨_, [.int ((10 ^ lim - 1 : Nat) + 1)], nines_received lim hl, ?_, ?_⟩
  · unfold deriveL lastPlusOne
    simp only [List.getLast?_singleton, List.dropLast_singleton]
    show (rpcInitL lim ([] ++ [.int _]) >>= fun s => deriveL lim s []) = _
    rw [rpcInitL_extend (by intro s hs; cases hs)]
    rfl
  · refine (C186_text lim hl _).2 ?_
    intro h
    have := h ((10 ^ lim - 1 : Nat) + 1) (by simp)
    omega

theorem C186_violated : ¬ C186_full := by
  intro h
  obtain ⟨segs, segs', h1, h2, h3⟩ := C186_always 4300 (by decide)
  obtain ⟨t, ht⟩ := h 4300 _ segs segs' [none] (by decide) h1 (by intro k hk; simp at hk) h2
  rw [h3] at ht
  cases ht

/-! ### examples, with a limit of three digits -/

example : receivedL 3 (py "0.a.1_2.1234.007") = .ok [.int 0, .str (py "a"), .int 12, .str (py "1234"), .int 7] := by decide +kernel
example : receivedL 3 (py "1.1234") = .error .typeError ∧ receivedL 3 (py "-999") = .ok [.int (-999)] := by decide +kernel
example : deriveL 3 [.int 5, .int 998] [none, some 4, some 7, none] = .ok [.int 5, .int 999, .int 4, .int 8] ∧
    rpcStrL 3 [.int 5, .int 999, .int 4, .int 8] = .ok (py "5.999.4.8") ∧
    rpcStrL 3 [.int 5, .int 1000] = .error .valueError := by decide +kernel

end Bolt
