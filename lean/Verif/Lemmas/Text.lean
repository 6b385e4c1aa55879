import Verif.Model.Py
/-! Lemmas about `str(int)`, `int(str)`, `split` and `join`. -/
namespace Bolt

theorem natStrAux_eq (f : Nat) : ∀ n g, n < f → n < g → natStrAux f n = natStrAux g n := by
  induction f with
  | zero => intro n g h _; omega
  | succ f ih =>
    intro n g h hg
    cases g with
    | zero => omega
    | succ g =>
      simp only [natStrAux]
      by_cases hn : n < 10
      · simp [hn]
      · simp only [hn, if_false]
        rw [ih (n / 10) g (by omega) (by omega)]

theorem natStr_lt {n : Nat} (h : n < 10) : natStr n = [48 + n] := by
  simp [natStr, natStrAux, h]

theorem natStr_ge {n : Nat} (h : ¬ n < 10) : natStr n = natStr (n / 10) ++ [48 + n % 10] := by
  have h1 : natStr n = natStrAux n (n / 10) ++ [48 + n % 10] := by
    simp [natStr, natStrAux, h]
  rw [h1, natStr, natStrAux_eq n (n / 10) (n / 10 + 1) (by omega) (by omega)]

theorem natStr_induct {P : Nat → Prop} (h1 : ∀ n, n < 10 → P n) (h2 : ∀ n, ¬ n < 10 → P (n / 10) → P n) :
    ∀ n, P n := by
  intro n
  induction n using Nat.strongRecOn with
  | ind n ih =>
    by_cases h : n < 10
    · exact h1 n h
    · exact h2 n h (ih _ (by omega))

theorem natStr_ne_nil (n : Nat) : natStr n ≠ [] := by
  by_cases h : n < 10
  · simp [natStr_lt h]
  · simp [natStr_ge h]

theorem natStr_digits (n : Nat) : ∀ c ∈ natStr n, 48 ≤ c ∧ c ≤ 57 := by
  induction n using natStr_induct with
  | h1 n h => intro c hc; simp [natStr_lt h] at hc; omega
  | h2 n h ih =>
    intro c hc
    rw [natStr_ge h, List.mem_append] at hc
    rcases hc with hc | hc
    · exact ih c hc
    · simp at hc; omega

theorem parseDigits_digit (c : Nat) (hc : 48 ≤ c ∧ c ≤ 57) (rest : PyStr) (acc : Nat) (prev : Bool) :
    parseDigits (c :: rest) acc prev = parseDigits rest (acc * 10 + (c - 48)) true := by
  have : digitVal c = some (c - 48) := by
    unfold digitVal decimalZeros
    have h1 : (decide (48 ≤ c) && decide (c < 48 + 10)) = true := by simp; omega
    simp only [List.find?_cons, h1, Option.map_some]
  simp [parseDigits, this]

/-- value of a digit string after `acc` -/
def digitsVal (acc : Nat) (s : PyStr) : Nat := s.foldl (fun a c => a * 10 + (c - 48)) acc

theorem parseDigits_digits (s : PyStr) (hs : ∀ c ∈ s, 48 ≤ c ∧ c ≤ 57) (hne : s ≠ []) (acc : Nat) (prev : Bool) :
    parseDigits s acc prev = some (digitsVal acc s) := by
  induction s generalizing acc prev with
  | nil => exact absurd rfl hne
  | cons c s ih =>
    rw [parseDigits_digit c (hs c (by simp))]
    by_cases h : s = []
    · subst h; simp [parseDigits, digitsVal]
    · rw [ih (fun d hd => hs d (by simp [hd])) h]; rfl

theorem digitsVal_append (acc : Nat) (s t : PyStr) : digitsVal acc (s ++ t) = digitsVal (digitsVal acc s) t := by
  simp [digitsVal]

theorem digitsVal_natStr (n : Nat) : digitsVal 0 (natStr n) = n := by
  induction n using natStr_induct with
  | h1 n h => simp [natStr_lt h, digitsVal]
  | h2 n h ih => rw [natStr_ge h, digitsVal_append, ih]; simp [digitsVal]; omega

theorem parseDigits_natStr (n : Nat) : parseDigits (natStr n) 0 false = some n := by
  rw [parseDigits_digits _ (natStr_digits n) (natStr_ne_nil n), digitsVal_natStr]

theorem natStr_inj {a b : Nat} (h : natStr a = natStr b) : a = b := by
  have := congrArg (digitsVal 0) h
  simpa [digitsVal_natStr] using this

/-! ### strip -/

theorem dropWhile_of_head {p : Nat → Bool} {s : PyStr} (h : ∀ c ∈ s, p c = false) : s.dropWhile p = s := by
  cases s with
  | nil => rfl
  | cons c s => simp [List.dropWhile, h c (by simp)]

theorem pyStrip_of_no_space {s : PyStr} (h : ∀ c ∈ s, isPySpace c = false) : pyStrip s = s := by
  unfold pyStrip
  rw [dropWhile_of_head h, dropWhile_of_head (by intro c hc; exact h c (by simpa using hc))]
  simp

theorem isPySpace_digit {c : Nat} (h : 48 ≤ c ∧ c ≤ 57) : isPySpace c = false := by
  simp [isPySpace]; omega

theorem intStr_chars (i : Int) : ∀ c ∈ intStr i, c = 45 ∨ (48 ≤ c ∧ c ≤ 57) := by
  intro c hc
  unfold intStr at hc
  split at hc
  · rcases List.mem_cons.1 hc with hc | hc
    · exact Or.inl hc
    · exact Or.inr (natStr_digits _ c hc)
  · exact Or.inr (natStr_digits _ c hc)

theorem intStr_no_space (i : Int) : ∀ c ∈ intStr i, isPySpace c = false := by
  intro c hc
  rcases intStr_chars i c hc with h | h
  · subst h; decide
  · exact isPySpace_digit h

theorem intStr_no_dot (i : Int) : 46 ∉ intStr i := by
  intro h; rcases intStr_chars i 46 h with h | h <;> omega

theorem pyInt_intStr (i : Int) : pyInt (intStr i) = some i := by
  unfold pyInt
  rw [pyStrip_of_no_space (intStr_no_space i)]
  unfold intStr
  by_cases h : i < 0
  · simp only [if_pos h, if_true, parseDigits_natStr]
    show some (-((i.natAbs : Nat) : Int)) = some i
    congr 1; omega
  · simp only [if_neg h]
    have hd := natStr_digits i.natAbs
    have hp := parseDigits_natStr i.natAbs
    cases hs : natStr i.natAbs with
    | nil => exact absurd hs (natStr_ne_nil _)
    | cons c r =>
      rw [hs] at hd hp
      have hc := hd c (by simp)
      simp only [if_neg (show ¬ c = 45 by omega), if_neg (show ¬ c = 43 by omega), hp]
      show some ((i.natAbs : Nat) : Int) = some i
      congr 1; omega

/-! ### split / join -/

theorem pySplit_ne_nil (sep : Nat) (s : PyStr) : pySplit sep s ≠ [] := by
  cases s with
  | nil => simp [pySplit]
  | cons c s =>
    simp only [pySplit]
    split
    · simp
    · split <;> simp

theorem pySplit_no_sep {sep : Nat} {w : PyStr} (h : sep ∉ w) : pySplit sep w = [w] := by
  induction w with
  | nil => rfl
  | cons c w ih =>
    simp only [List.mem_cons, not_or] at h
    simp [pySplit, ih h.2, Ne.symm h.1]

theorem pySplit_append_sep {sep : Nat} {w : PyStr} (h : sep ∉ w) (rest : PyStr) :
    pySplit sep (w ++ sep :: rest) = w :: pySplit sep rest := by
  induction w with
  | nil => simp [pySplit]
  | cons c w ih =>
    simp only [List.mem_cons, not_or] at h
    simp [pySplit, ih h.2, Ne.symm h.1]

theorem pySplit_pyJoin {sep : Nat} : ∀ {ws : List PyStr}, ws ≠ [] → (∀ w ∈ ws, sep ∉ w) →
    pySplit sep (pyJoin sep ws) = ws
  | [], h, _ => absurd rfl h
  | [w], _, h => by simpa [pyJoin] using pySplit_no_sep (h w (by simp))
  | w :: w2 :: ws, _, h => by
    have ih := pySplit_pyJoin (ws := w2 :: ws) (by simp) (fun x hx => h x (List.mem_cons_of_mem _ hx))
    simp only [pyJoin]
    rw [pySplit_append_sep (h w (by simp)), ih]

theorem pySplit_mem_no_sep {sep : Nat} {s : PyStr} : ∀ w ∈ pySplit sep s, sep ∉ w := by
  induction s with
  | nil => simp [pySplit]
  | cons c s ih =>
    intro w hw
    simp only [pySplit] at hw
    split at hw
    · rcases List.mem_cons.1 hw with rfl | hw
      · simp
      · exact ih w hw
    · rename_i hne
      split at hw
      · rename_i hnil; exact absurd hnil (pySplit_ne_nil _ _)
      · rename_i w0 ws he
        rw [he] at ih
        rcases List.mem_cons.1 hw with rfl | hw
        · simp only [List.mem_cons, not_or]; exact ⟨fun e => hne e.symm, ih w0 (by simp)⟩
        · exact ih w (by simp [hw])

theorem pyStartsWith_iff {s p : PyStr} : pyStartsWith s p = true ↔ ∃ t, s = p ++ t := by
  unfold pyStartsWith
  rw [beq_iff_eq]
  constructor
  · intro h; exact ⟨s.drop p.length, by have := List.take_append_drop p.length s; rw [h] at this; exact this.symm⟩
  · rintro ⟨t, rfl⟩; simp

end Bolt
