import Verif.Props.Tracer
import Verif.Lemmas.AioClient
/-!
# C154: the text of received rpc ids
-/
namespace Bolt
open Spec

namespace Spec

/-- the characters that `int()` takes for blanks -/
def blanks : List Nat :=
  [9, 10, 11, 12, 13, 32, 133, 160, 5760, 8192, 8193, 8194, 8195, 8196, 8197, 8198, 8199, 8200, 8201, 8202, 8232, 8233, 8239,
   8287, 12288]

/-- the digits zero of the scripts of Unicode 14 -/
def zeros : List Nat :=
  [48, 1632, 1776, 1984, 2406, 2534, 2662, 2790, 2918, 3046, 3174, 3302, 3430, 3558, 3664, 3792, 3872, 4160,
   4240, 6112, 6160, 6470, 6608, 6784, 6800, 6992, 7088, 7232, 7248, 42528, 43216, 43264, 43472, 43504, 43600,
   44016, 65296, 66720, 68912, 69734, 69872, 69942, 70096, 70384, 70736, 70864, 71248, 71360, 71472, 71904,
   72016, 72784, 73040, 73120, 92768, 92864, 93008, 120782, 120792, 120802, 120812, 120822, 123200, 123632,
   125264, 130032]

/-- `c` is a digit, of whatever script, with the value `d` -/
def DigitOf (c d : Nat) : Prop := ∃ z ∈ zeros, c = z + d ∧ d < 10

/-- a decimal number: digits, with single underscores between them if one likes -/
inductive DigitRun : PyStr → Nat → Prop
  | one (c d : Nat) (h : DigitOf c d) : DigitRun [c] d
  | next (s : PyStr) (n c d : Nat) (hs : DigitRun s n) (h : DigitOf c d) : DigitRun (s ++ [c]) (10 * n + d)
  | under (s : PyStr) (n c d : Nat) (hs : DigitRun s n) (h : DigitOf c d) : DigitRun (s ++ [95, c]) (10 * n + d)

/-- The text `s` is an integer literal as `int()` reads it, with the value `i`: a decimal number, with a sign if one likes,
with blanks on either side. -/
def IntLit (s : PyStr) (i : Int) : Prop :=
  ∃ (pre sign body post : PyStr) (n : Nat), s = pre ++ (sign ++ body) ++ post ∧ (∀ c ∈ pre, c ∈ blanks) ∧
    (∀ c ∈ post, c ∈ blanks) ∧ DigitRun body n ∧
    (sign = [] ∧ i = n ∨ sign = [43] ∧ i = n ∨ sign = [45] ∧ i = -(n : Int))

/-- the text is the usual one of a number: Latin digits, no leading zero, a minus sign before a number that is not zero -/
def Usual (s : PyStr) : Prop :=
  s = [48] ∨ ∃ (c : Nat) (r : PyStr), (s = c :: r ∨ s = 45 :: c :: r) ∧ (49 ≤ c ∧ c ≤ 57) ∧ ∀ x ∈ r, 48 ≤ x ∧ x ≤ 57

/-- `s` consists of the parts `ws`, with dots between them -/
inductive Dotted : List PyStr → PyStr → Prop
  | one (w : PyStr) (h : 46 ∉ w) : Dotted [w] w
  | more (w : PyStr) (ws : List PyStr) (s : PyStr) (h : 46 ∉ w) (hs : Dotted ws s) : Dotted (w :: ws) (w ++ 46 :: s)

end Spec

/-! ## what `int()` accepts -/

theorem digitVal_iff {c d : Nat} : digitVal c = some d ↔ DigitOf c d := by
  have same : decimalZeros = zeros := by decide
  have apart : ∀ z ∈ zeros, ∀ z' ∈ zeros, z ≤ z' + 9 → z' ≤ z + 9 → z = z' := by decide +kernel
  unfold digitVal DigitOf
  rw [same]
  constructor
  · intro h
    obtain ⟨z, h1, h2⟩ := Option.map_eq_some_iff.1 h
    have h3 := List.find?_some h1
    simp only [Bool.and_eq_true, decide_eq_true_eq] at h3
    exact ⟨z, List.mem_of_find?_eq_some h1, by omega, by omega⟩
  · rintro ⟨z, hz, rfl, hd⟩
    cases hf : zeros.find? (fun z' => z' ≤ z + d && z + d < z' + 10) with
    | none =>
      have := List.find?_eq_none.1 hf z hz
      simp only [Bool.and_eq_true, decide_eq_true_eq] at this
      exact absurd ⟨by omega, by omega⟩ this
    | some z' =>
      have h3 := List.find?_some hf
      simp only [Bool.and_eq_true, decide_eq_true_eq] at h3
      have := apart z hz z' (List.mem_of_find?_eq_some hf) (by omega) (by omega)
      subst this
      simp

theorem isPySpace_iff {c : Nat} : isPySpace c = true ↔ c ∈ blanks := by
  simp only [isPySpace, blanks, Bool.or_eq_true, Bool.and_eq_true, decide_eq_true_eq, beq_iff_eq, List.mem_cons,
    List.not_mem_nil, or_false]
  omega

theorem digit_not_blank {c d : Nat} (h : DigitOf c d) : c ∉ blanks := by
  have : ∀ z ∈ zeros, ∀ d < 10, z + d ∉ blanks := by decide +kernel
  obtain ⟨z, hz, rfl, hd⟩ := h
  exact this z hz d hd

theorem digit_not_sign {c d : Nat} (h : DigitOf c d) : c ≠ 43 ∧ c ≠ 45 ∧ c ≠ 95 := by
  have : ∀ z ∈ zeros, ∀ d < 10, z + d ≠ 43 ∧ z + d ≠ 45 ∧ z + d ≠ 95 := by decide +kernel
  obtain ⟨z, hz, rfl, hd⟩ := h
  exact this z hz d hd

theorem digitVal_under : digitVal 95 = none := by
  cases h : digitVal 95 with
  | none => rfl
  | some d => exact absurd rfl (digit_not_sign (digitVal_iff.1 h)).2.2

theorem Spec.DigitRun.parses {s : PyStr} {n : Nat} (h : DigitRun s n) :
    ∀ rest, parseDigits (s ++ rest) 0 false = parseDigits rest n true := by
  induction h with
  | one c d h =>
    intro rest
    simp [parseDigits, digitVal_iff.2 h]
  | next s n c d hs h ih =>
    intro rest
    rw [List.append_assoc, ih]
    simp [parseDigits, digitVal_iff.2 h, Nat.mul_comm]
  | under s n c d hs h ih =>
    intro rest
    rw [List.append_assoc, ih]
    simp [parseDigits, digitVal_under, digitVal_iff.2 h, Nat.mul_comm]

theorem Spec.DigitRun.of_parse : ∀ (k : Nat) (rest s : PyStr) (n m : Nat), rest.length ≤ k → DigitRun s n →
    parseDigits rest n true = some m → DigitRun (s ++ rest) m := by
  intro k
  induction k with
  | zero =>
    intro rest s n m hk h hp
    have : rest = [] := List.length_eq_zero_iff.1 (by omega)
    subst this
    simp only [parseDigits, if_true, Option.some.injEq] at hp
    subst hp
    simpa using h
  | succ k ih =>
    intro rest s n m hk h hp
    cases rest with
    | nil =>
      simp only [parseDigits, if_true, Option.some.injEq] at hp
      subst hp
      simpa using h
    | cons c r =>
      simp only [List.length_cons] at hk
      unfold parseDigits at hp
      split at hp
      · next d hd =>
        have := ih r (s ++ [c]) (10 * n + d) m (by omega) (.next s n c d h (digitVal_iff.1 hd)) (by rw [Nat.mul_comm]; exact hp)
        simpa using this
      · split at hp
        · next hc =>
          cases r with
          | nil => cases hp
          | cons e r =>
            dsimp only at hp
            split at hp
            · next he =>
              obtain ⟨d, hd⟩ := Option.isSome_iff_exists.1 he
              have hp' : parseDigits r (10 * n + d) true = some m := by
                unfold parseDigits at hp
                rw [hd] at hp
                rw [Nat.mul_comm]
                exact hp
              simp only [List.length_cons] at hk
              have := ih r (s ++ [95, e]) (10 * n + d) m (by omega) (.under s n e d h (digitVal_iff.1 hd)) hp'
              rw [hc.1]
              simpa using this
            · cases hp
        · cases hp

theorem parseDigits_iff {s : PyStr} {n : Nat} : parseDigits s 0 false = some n ↔ DigitRun s n := by
  constructor
  · intro h
    cases s with
    | nil => cases h
    | cons c r =>
      unfold parseDigits at h
      split at h
      · next d hd =>
        exact DigitRun.of_parse _ r [c] d n (Nat.le_refl _) (.one c d (digitVal_iff.1 hd)) (by simpa using h)
      · split at h
        · next hc => exact absurd hc.2 (by simp)
        · cases h
  · intro h
    have := h.parses []
    rw [List.append_nil] at this
    rw [this]
    rfl

theorem Spec.DigitRun.ends {s : PyStr} {n : Nat} (h : DigitRun s n) :
    ∃ (a b : PyStr) (c d e f : Nat), s = c :: a ∧ s = b ++ [e] ∧ DigitOf c d ∧ DigitOf e f := by
  induction h with
  | one c d h => exact ⟨[], [], c, d, c, d, rfl, rfl, h, h⟩
  | next s n c d hs h ih =>
    obtain ⟨a, b, x, y, z, w, h1, h2, h3, h4⟩ := ih
    exact ⟨a ++ [c], s, x, y, c, d, by rw [h1]; rfl, rfl, h3, h⟩
  | under s n c d hs h ih =>
    obtain ⟨a, b, x, y, z, w, h1, h2, h3, h4⟩ := ih
    exact ⟨a ++ [95, c], s ++ [95], x, y, c, d, by rw [h1]; rfl, by simp, h3, h⟩

theorem dropWhile_append {p : Nat → Bool} : ∀ {pre s : PyStr}, (∀ c ∈ pre, p c = true) →
    (∀ c r, s = c :: r → p c = false) → (pre ++ s).dropWhile p = s := by
  intro pre
  induction pre with
  | nil =>
    intro s _ h
    cases s with
    | nil => rfl
    | cons c r => simp [h c r rfl]
  | cons a pre ih =>
    intro s h1 h2
    simp only [List.cons_append, List.dropWhile, h1 a (by simp)]
    exact ih (fun c hc => h1 c (by simp [hc])) h2

theorem takeWhile_dropWhile_all {p : Nat → Bool} (s : PyStr) : ∃ pre, s = pre ++ s.dropWhile p ∧ ∀ c ∈ pre, p c = true := by
  refine ⟨s.takeWhile p, (List.takeWhile_append_dropWhile ..).symm, fun c hc => ?_⟩
  induction s with
  | nil => cases hc
  | cons a s ih =>
    rw [List.takeWhile_cons] at hc
    split at hc
    · next ha =>
      rcases List.mem_cons.1 hc with rfl | hc
      · exact ha
      · exact ih hc
    · cases hc

/-- stripping -/
theorem pyStrip_spec (s : PyStr) : ∃ pre post, s = pre ++ pyStrip s ++ post ∧ (∀ c ∈ pre, c ∈ blanks) ∧ ∀ c ∈ post, c ∈ blanks := by
  obtain ⟨pre, h1, h2⟩ := takeWhile_dropWhile_all (p := isPySpace) s
  obtain ⟨tsop, h3, h4⟩ := takeWhile_dropWhile_all (p := isPySpace) (s.dropWhile isPySpace).reverse
  refine ⟨pre, tsop.reverse, ?_, fun c hc => isPySpace_iff.1 (h2 c hc), fun c hc => isPySpace_iff.1 (h4 c (by simpa using hc))⟩
  have := congrArg List.reverse h3
  rw [List.reverse_reverse, List.reverse_append] at this
  rw [List.append_assoc]
  unfold pyStrip
  rw [← this]
  exact h1

theorem pyStrip_of {pre core post : PyStr} (h1 : ∀ c ∈ pre, c ∈ blanks) (h2 : ∀ c ∈ post, c ∈ blanks)
    {a b : PyStr} {x y : Nat} (ha : core = x :: a) (hb : core = b ++ [y]) (hx : x ∉ blanks) (hy : y ∉ blanks) :
    pyStrip (pre ++ core ++ post) = core := by
  have sp : ∀ {c}, c ∉ blanks → isPySpace c = false := fun {c} h => by
    cases hc : isPySpace c with
    | false => rfl
    | true => exact absurd (isPySpace_iff.1 hc) h
  unfold pyStrip
  rw [List.append_assoc, dropWhile_append (fun c hc => isPySpace_iff.2 (h1 c hc))
    (fun c r e => by rw [ha] at e; cases e; exact sp hx), List.reverse_append,
    dropWhile_append (fun c hc => isPySpace_iff.2 (h2 c (by simpa using hc)))
    (fun c r e => by rw [hb, List.reverse_append] at e; cases e; exact sp hy), List.reverse_reverse]

/-- C154: what `int()` makes of a text, as the documentation of Python says it -/
theorem C154_int (s : PyStr) (i : Int) : pyInt s = some i ↔ IntLit s i := by
  constructor
  · intro h
    obtain ⟨pre, post, hs, h1, h2⟩ := pyStrip_spec s
    unfold pyInt at h
    split at h
    · cases h
    · next c r hc =>
      split at h
      · next e =>
        obtain ⟨n, hn, rfl⟩ : ∃ n, parseDigits r 0 false = some n ∧ i = -(n : Int) := by
          cases hp : parseDigits r 0 false with
          | none => rw [hp] at h; cases h
          | some n => rw [hp] at h; exact ⟨n, rfl, (Option.some.inj h).symm⟩
        refine ⟨pre, [45], r, post, n, ?_, h1, h2, parseDigits_iff.1 hn, .inr (.inr ⟨rfl, rfl⟩)⟩
        rw [hc, e] at hs; exact hs
      · split at h
        · next e =>
          obtain ⟨n, hn, rfl⟩ : ∃ n, parseDigits r 0 false = some n ∧ i = (n : Int) := by
            cases hp : parseDigits r 0 false with
            | none => rw [hp] at h; cases h
            | some n => rw [hp] at h; exact ⟨n, rfl, (Option.some.inj h).symm⟩
          refine ⟨pre, [43], r, post, n, ?_, h1, h2, parseDigits_iff.1 hn, .inr (.inl ⟨rfl, rfl⟩)⟩
          rw [hc, e] at hs; exact hs
        · obtain ⟨n, hn, rfl⟩ : ∃ n, parseDigits (c :: r) 0 false = some n ∧ i = (n : Int) := by
            cases hp : parseDigits (c :: r) 0 false with
            | none => rw [hp] at h; cases h
            | some n => rw [hp] at h; exact ⟨n, rfl, (Option.some.inj h).symm⟩
          refine ⟨pre, [], c :: r, post, n, ?_, h1, h2, parseDigits_iff.1 hn, .inl ⟨rfl, rfl⟩⟩
          rw [hc] at hs; exact hs
  · rintro ⟨pre, sign, body, post, n, rfl, h1, h2, h3, h4⟩
    obtain ⟨a, b, c, d, e, f, e1, e2, e3, e4⟩ := h3.ends
    have hp := parseDigits_iff.2 h3
    have hb : ∀ pre', pre' ++ body = (pre' ++ b) ++ [e] := fun pre' => by rw [e2, List.append_assoc]
    unfold pyInt
    rcases h4 with ⟨rfl, rfl⟩ | ⟨rfl, rfl⟩ | ⟨rfl, rfl⟩
    · rw [pyStrip_of h1 h2 (show [] ++ body = c :: a from e1) (hb []) (digit_not_blank e3) (digit_not_blank e4)]
      rw [show [] ++ body = c :: a from e1]
      dsimp only
      rw [if_neg (digit_not_sign e3).2.1, if_neg (digit_not_sign e3).1, ← e1, hp]
      rfl
    · rw [pyStrip_of h1 h2 (show [43] ++ body = 43 :: body from rfl) (hb [43]) (by decide) (digit_not_blank e4)]
      simp [hp]
    · rw [pyStrip_of h1 h2 (show [45] ++ body = 45 :: body from rfl) (hb [45]) (by decide) (digit_not_blank e4)]
      simp [hp]

/-! ## the usual text of a number -/

theorem natStr_usual (n : Nat) : natStr n = [48] ∧ n = 0 ∨
    ∃ (c : Nat) (r : PyStr), natStr n = c :: r ∧ (49 ≤ c ∧ c ≤ 57) ∧ (∀ x ∈ r, 48 ≤ x ∧ x ≤ 57) ∧ n ≠ 0 := by
  induction n using natStr_induct with
  | h1 n h =>
    by_cases e : n = 0
    · subst e; exact .inl ⟨by decide, rfl⟩
    · exact .inr ⟨48 + n, [], natStr_lt h, by omega, by simp, e⟩
  | h2 n h ih =>
    rcases ih with ⟨-, e⟩ | ⟨c, r, e, h1, h2, -⟩
    · omega
    · refine .inr ⟨c, r ++ [48 + n % 10], by rw [natStr_ge h, e]; rfl, h1, ?_, by omega⟩
      intro x hx
      rcases List.mem_append.1 hx with hx | hx
      · exact h2 x hx
      · simp at hx; omega

theorem intStr_usual (i : Int) : Usual (intStr i) := by
  unfold intStr
  rcases natStr_usual i.natAbs with ⟨e, h⟩ | ⟨c, r, e, h1, h2, h3⟩
  · rw [if_neg (by omega), e]; exact .inl rfl
  · split
    · exact .inr ⟨c, r, .inr (by rw [e]), h1, h2⟩
    · exact .inr ⟨c, r, .inl e, h1, h2⟩

theorem digitsVal_pos : ∀ (s : PyStr) (acc : Nat), acc ≤ digitsVal acc s := by
  intro s
  induction s with
  | nil => intro acc; exact Nat.le_refl _
  | cons c s ih =>
    intro acc
    have := ih (acc * 10 + (c - 48))
    show acc ≤ digitsVal (acc * 10 + (c - 48)) s
    omega

theorem natStr_digitsVal {c : Nat} {r : PyStr} (h1 : 49 ≤ c ∧ c ≤ 57) (h2 : ∀ x ∈ r, 48 ≤ x ∧ x ≤ 57) :
    natStr (digitsVal 0 (c :: r)) = c :: r := by
  revert h2
  refine snoc_induct (P := fun r : PyStr => (∀ x ∈ r, 48 ≤ x ∧ x ≤ 57) → natStr (digitsVal 0 (c :: r)) = c :: r) ?_ ?_ r
  · intro _
    have : digitsVal 0 [c] = c - 48 := by simp [digitsVal]
    rw [this, natStr_lt (by omega)]
    congr 1
    omega
  · intro r x ih h2
    have ih := ih fun y hy => h2 y (List.mem_append_left _ hy)
    have hx := h2 x (by simp)
    have hp : 1 ≤ digitsVal 0 (c :: r) := by
      have := digitsVal_pos r (0 * 10 + (c - 48))
      show 1 ≤ digitsVal (0 * 10 + (c - 48)) r
      omega
    have e : digitsVal 0 (c :: (r ++ [x])) = digitsVal 0 (c :: r) * 10 + (x - 48) := by
      rw [← List.cons_append, digitsVal_append]
      simp [digitsVal]
    rw [e, natStr_ge (by omega)]
    have e1 : (digitsVal 0 (c :: r) * 10 + (x - 48)) / 10 = digitsVal 0 (c :: r) := by omega
    have e2 : 48 + (digitsVal 0 (c :: r) * 10 + (x - 48)) % 10 = x := by omega
    rw [e1, e2, ih]
    rfl

theorem usual_pyInt {w : PyStr} (h : Usual w) : ∃ i, pyInt w = some i ∧ intStr i = w := by
  have key : ∀ {c : Nat} {r : PyStr}, (49 ≤ c ∧ c ≤ 57) → (∀ x ∈ r, 48 ≤ x ∧ x ≤ 57) →
      1 ≤ digitsVal 0 (c :: r) ∧ natStr (digitsVal 0 (c :: r)) = c :: r := fun {c r} h1 h2 => ⟨by
      have := digitsVal_pos r (0 * 10 + (c - 48))
      show 1 ≤ digitsVal (0 * 10 + (c - 48)) r
      omega, natStr_digitsVal h1 h2⟩
  have : ∃ i, intStr i = w := by
    rcases h with rfl | ⟨c, r, rfl | rfl, h1, h2⟩
    · exact ⟨0, by decide⟩
    · refine ⟨(digitsVal 0 (c :: r) : Nat), ?_⟩
      unfold intStr
      rw [if_neg (by omega), Int.natAbs_natCast]
      exact (key h1 h2).2
    · refine ⟨-(digitsVal 0 (c :: r) : Nat), ?_⟩
      obtain ⟨k1, k2⟩ := key h1 h2
      unfold intStr
      rw [if_pos (by omega), Int.natAbs_neg, Int.natAbs_natCast, k2]
  obtain ⟨i, rfl⟩ := this
  exact ⟨i, pyInt_intStr i, rfl⟩

/-! ## parts -/

theorem dotted_join {ws : List PyStr} {s : PyStr} (h : Dotted ws s) : s = pyJoin 46 ws ∧ ws ≠ [] ∧ ∀ w ∈ ws, 46 ∉ w := by
  induction h with
  | one w h => exact ⟨rfl, by simp, by simpa using h⟩
  | more w ws s h hs ih =>
    obtain ⟨h1, h2, h3⟩ := ih
    refine ⟨?_, by simp, ?_⟩
    · cases ws with
      | nil => exact absurd rfl h2
      | cons a l => rw [h1]; rfl
    · intro x hx
      rcases List.mem_cons.1 hx with rfl | hx
      · exact h
      · exact h3 x hx

theorem join_dotted : ∀ {ws : List PyStr}, ws ≠ [] → (∀ w ∈ ws, 46 ∉ w) → Dotted ws (pyJoin 46 ws) := by
  intro ws
  induction ws with
  | nil => intro h; exact absurd rfl h
  | cons w ws ih =>
    intro _ h
    cases ws with
    | nil => exact .one w (h w (by simp))
    | cons a l =>
      exact .more w (a :: l) _ (h w (by simp)) (ih (by simp) fun x hx => h x (List.mem_cons_of_mem _ hx))

theorem dotted_split {ws : List PyStr} {s : PyStr} (h : Dotted ws s) : pySplit 46 s = ws := by
  obtain ⟨h1, h2, h3⟩ := dotted_join h
  rw [h1]
  exact pySplit_pyJoin h2 h3

/-- what becomes of a part -/
def normPart (w : PyStr) : PyStr := match pyInt w with | some i => intStr i | none => w

theorem normPart_kept (w : PyStr) : normPart w = w ↔ ((∃ i, IntLit w i) → Usual w) := by
  unfold normPart
  split
  · next i hi =>
    constructor
    · intro h _
      rw [← h]; exact intStr_usual i
    · intro h
      obtain ⟨j, h1, h2⟩ := usual_pyInt (h ⟨i, (C154_int w i).1 hi⟩)
      rw [hi] at h1
      cases h1
      exact h2
  · next hn =>
    refine ⟨fun _ ⟨i, hi⟩ => ?_, fun _ => rfl⟩
    rw [(C154_int w i).2 hi] at hn
    cases hn

theorem extracted_text {h h' : Heap} {fresh s : PyStr} {carrier : PyDict PyStr PyStr} {b : Baggage} {ws : List PyStr}
    (hn : PyDict.NodupKeys carrier) (hs : PyDict.get? carrier (py "rpc_trace_context.sofaRpcId") = some s)
    (hd : Dotted ws s) (he : extract h fresh carrier = .ok (h', b)) :
    (PyDict.get? b (py "sofaRpcId")).map (BagVal.toStr h') = some (pyJoin 46 (ws.map normPart)) := by
  unfold extract at he
  cases hk : spanCtxFromKwargs h fresh (extractItems carrier) with
  | error e0 => rw [hk] at he; cases he
  | ok p2 =>
    rw [hk] at he
    cases he
    obtain ⟨-, segs, hi, rfl, -, hg⟩ := spanCtxFromKwargs_ok (extractItems_nodup carrier) hk
    have hs' : PyDict.get? (extractItems carrier) kRpcId = some s := by
      rw [extractItems_get? hn]; exact hs
    rw [hs', Option.getD_some, dotted_split hd] at hi
    have hsegs : segs = (ws.map Seg.str).map Seg.trans := by
      have := hi
      rw [← dotted_split hd, rpcInit_split_ok_iff] at this
      rw [this.1, dotted_split hd]
    rw [show py "sofaRpcId" = kRpcId from rfl, hg, if_neg (by decide), if_pos rfl]
    simp only [Option.map_some, BagVal.toStr, List.getElem?_concat_length, Option.getD_some]
    rw [hsegs]
    unfold rpcStr
    rw [List.map_map, List.map_map]
    congr 3
    funext w
    simp only [Function.comp, Seg.trans, normPart]
    cases pyInt w <;> rfl

theorem normPart_dotted {ws : List PyStr} {s : PyStr} (hd : Dotted ws s) :
    Dotted (ws.map normPart) (pyJoin 46 (ws.map normPart)) := by
  obtain ⟨-, h2, h3⟩ := dotted_join hd
  refine join_dotted (by simpa using h2) ?_
  intro x hx
  obtain ⟨w, hw, rfl⟩ := List.mem_map.1 hx
  unfold normPart
  split
  · exact intStr_no_dot _
  · exact h3 w hw

/-- C154: the context made from a request has the rpc id of the request, as it was written -/
def C154_full : Prop :=
  ∀ (h h' : Heap) (fresh s : PyStr) (carrier : PyDict PyStr PyStr) (b : Baggage), PyDict.NodupKeys carrier →
    PyDict.get? carrier (py "rpc_trace_context.sofaRpcId") = some s → extract h fresh carrier = .ok (h', b) →
    (PyDict.get? b (py "sofaRpcId")).map (BagVal.toStr h') = some s

/-- `0.07` becomes `0.7` -/
theorem C154_violated : ¬ C154_full := by
  intro h
  have := h [] _ (py "f") (py "0.07") [(py "rpc_trace_context.sofaRpcId", py "0.07")] _ (by simp [PyDict.NodupKeys])
    (by decide) rfl
  revert this
  decide

/-- C154, what holds: the rpc id has the same number of parts, and a part that is an integer literal is replaced by the
usual text of the same number; all others are kept. -/
theorem C154_parts_partial (h h' : Heap) (fresh s : PyStr) (carrier : PyDict PyStr PyStr) (b : Baggage) (ws : List PyStr)
    (hn : PyDict.NodupKeys carrier) (hs : PyDict.get? carrier (py "rpc_trace_context.sofaRpcId") = some s)
    (hd : Dotted ws s) (he : extract h fresh carrier = .ok (h', b)) :
    ∃ (t : PyStr) (us : List PyStr), (PyDict.get? b (py "sofaRpcId")).map (BagVal.toStr h') = some t ∧ Dotted us t ∧
      us.length = ws.length ∧ ∀ (j : Nat) (w u : PyStr), ws[j]? = some w → us[j]? = some u →
        (∃ i, IntLit w i ∧ IntLit u i ∧ Usual u) ∨ (¬ ∃ i, IntLit w i) ∧ u = w := by
  refine ⟨_, _, extracted_text hn hs hd he, normPart_dotted hd, by simp, ?_⟩
  intro j w u hw hu
  rw [List.getElem?_map, hw] at hu
  cases hu
  unfold normPart
  split
  · next i hi => exact .inl ⟨i, (C154_int w i).1 hi, (C154_int _ i).1 (pyInt_intStr i), intStr_usual i⟩
  · next hnone =>
    refine .inr ⟨fun ⟨i, hi⟩ => ?_, rfl⟩
    rw [(C154_int w i).2 hi] at hnone
    cases hnone

/-- C154, what holds: the text is kept exactly if its parts that are integer literals are written as usual. -/
theorem C154_kept_partial (h h' : Heap) (fresh s : PyStr) (carrier : PyDict PyStr PyStr) (b : Baggage) (ws : List PyStr)
    (hn : PyDict.NodupKeys carrier) (hs : PyDict.get? carrier (py "rpc_trace_context.sofaRpcId") = some s)
    (hd : Dotted ws s) (he : extract h fresh carrier = .ok (h', b)) :
    (PyDict.get? b (py "sofaRpcId")).map (BagVal.toStr h') = some s ↔ ∀ w ∈ ws, (∃ i, IntLit w i) → Usual w := by
  rw [extracted_text hn hs hd he]
  constructor
  · intro e w hw
    have e := Option.some.inj e
    have := normPart_dotted hd
    rw [e] at this
    have := (dotted_split this).symm.trans (dotted_split hd)
    rw [← normPart_kept]
    obtain ⟨j, hj⟩ := List.mem_iff_getElem?.1 hw
    have h2 := congrArg (fun l : List PyStr => l[j]?) this
    simp only [List.getElem?_map, hj, Option.map_some, Option.some.injEq] at h2
    exact h2
  · intro hall
    have : ws.map normPart = ws := by
      conv => rhs; rw [← List.map_id ws]
      exact List.map_congr_left fun w hw => (normPart_kept w).2 (hall w hw)
    rw [this, ← (dotted_join hd).1]

/-- C154: a request with this rpc id, and no trace item named like a parameter, is understood exactly if the last part is an
integer literal. -/
theorem C154_understood (h : Heap) (fresh s : PyStr) (carrier : PyDict PyStr PyStr) (ws : List PyStr) (w : PyStr)
    (hn : PyDict.NodupKeys carrier) (hs : PyDict.get? carrier (py "rpc_trace_context.sofaRpcId") = some s)
    (hr : PyDict.contains carrier (py "rpc_trace_context.reference") = false)
    (hf : PyDict.contains carrier (py "rpc_trace_context.self") = false) (hd : Dotted ws s) (hw : ws.getLast? = some w) :
    (∃ r, extract h fresh carrier = .ok r) ↔ ∃ i, IntLit w i := by
  have hlast : lastSegment s = w := by
    have := pySplit_getLast s
    rw [dotted_split hd, hw] at this
    exact (Option.some.inj this).symm
  have h21 := (C21_extract_total h fresh carrier hn).2.1
  rw [hs, hr, hf] at h21
  simp only [Option.some.injEq, Bool.false_eq_true, or_false, exists_eq_left', hlast] at h21
  constructor
  · rintro ⟨r, hr⟩
    cases hp : pyInt w with
    | some i => exact ⟨i, (C154_int w i).1 hp⟩
    | none =>
      obtain ⟨e, he⟩ := h21.2 hp
      rw [hr] at he
      cases he
  · rintro ⟨i, hi⟩
    cases he : extract h fresh carrier with
    | ok r => exact ⟨r, rfl⟩
    | error e =>
      have := h21.1 ⟨e, he⟩
      rw [(C154_int w i).2 hi] at this
      cases this

/-! ### examples -/

/-- an id with a part that is no number, one with blanks and a sign, and one in Arabic digits -/
def exRpcText : PyStr := py "a b.  +1_0 ." ++ [1635]

example : Dotted [py "a b", py "  +1_0 ", [1635]] exRpcText :=
  .more _ _ _ (by decide) (.more _ _ _ (by decide) (.one _ (by decide)))

example : IntLit (py "  +1_0 ") 10 := (C154_int _ _).1 (by decide)
example : IntLit [1635] 3 := (C154_int _ _).1 (by decide)
example : ¬ ∃ i, IntLit (py "a b") i := by
  rintro ⟨i, hi⟩
  have := (C154_int _ _).2 hi
  rw [show pyInt (py "a b") = none by decide] at this
  cases this

set_option maxRecDepth 20000 in
/-- the hypotheses of the theorems, and what becomes of it -/
example : ∃ r : Heap × Baggage,
    extract [] (py "f") [(py "x", py "y"), (py "rpc_trace_context.sofaRpcId", exRpcText)] = .ok r ∧
    (PyDict.get? r.2 (py "sofaRpcId")).map (BagVal.toStr r.1) = some (py "a b.10.3") := ⟨_, rfl, by decide +kernel⟩

/-- two ids that differ become the same -/
example : [py "0.1", py "00.+1"].map (fun s =>
      (extract [] (py "f") [(py "rpc_trace_context.sofaRpcId", s)]).toOption.map fun r =>
        (PyDict.get? r.2 (py "sofaRpcId")).map (BagVal.toStr r.1)) = [some (some (py "0.1")), some (some (py "0.1"))] := by
  decide +kernel

end Bolt
