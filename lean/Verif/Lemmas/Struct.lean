import Verif.Model.Struct
/-! Lemmas about the `struct` model. -/
namespace Bolt

@[simp] theorem beBytes_length (k n : Nat) : (beBytes k n).length = k := by
  induction k generalizing n with
  | zero => rfl
  | succ k ih => simp [beBytes, ih]

theorem beNat_append (a : Bytes) (b : UInt8) : beNat (a ++ [b]) = beNat a * 256 + b.toNat := by
  simp [beNat]

theorem beNat_beBytes (k n : Nat) (h : n < 256 ^ k) : beNat (beBytes k n) = n := by
  induction k generalizing n with
  | zero => simp at h; subst h; rfl
  | succ k ih =>
    have h1 : n / 256 < 256 ^ k := by
      rw [Nat.div_lt_iff_lt_mul (by decide)]; rw [Nat.pow_succ] at h; exact h
    simp only [beBytes, beNat_append, ih _ h1]
    have : (UInt8.ofNat (n % 256)).toNat = n % 256 := by simp
    rw [this]; omega

theorem beNat_lt (bs : Bytes) : beNat bs < 256 ^ bs.length := by
  suffices H : ∀ (l : Bytes), beNat l.reverse < 256 ^ l.length by
    have := H bs.reverse; simpa using this
  intro l
  induction l with
  | nil => simp [beNat]
  | cons b l ih =>
    rw [List.reverse_cons, beNat_append, List.length_cons, Nat.pow_succ]
    have := b.toNat_lt
    omega

theorem beBytes_beNat (bs : Bytes) : beBytes bs.length (beNat bs) = bs := by
  suffices H : ∀ (l : Bytes), beBytes l.length (beNat l.reverse) = l.reverse by
    have := H bs.reverse; simpa using this
  intro l
  induction l with
  | nil => rfl
  | cons b l ih =>
    rw [List.reverse_cons, beNat_append, List.length_cons, beBytes]
    have hb := b.toNat_lt
    have h1 : (beNat l.reverse * 256 + b.toNat) / 256 = beNat l.reverse := by omega
    have h2 : (beNat l.reverse * 256 + b.toNat) % 256 = b.toNat := by omega
    rw [h1, h2, ih]; simp

theorem packSigned_some {k : Nat} {v : Int} {bs : Bytes} (h : packSigned k v = some bs) :
    -((256 ^ k / 2 : Nat) : Int) ≤ v ∧ v < ((256 ^ k / 2 : Nat) : Int) ∧
      bs = beBytes k (v % ((256 ^ k : Nat) : Int)).toNat := by
  unfold packSigned at h
  split at h
  · rename_i hc; exact ⟨hc.1, hc.2, by simpa using h.symm⟩
  · cases h

theorem packUnsigned_some {k : Nat} {v : Int} {bs : Bytes} (h : packUnsigned k v = some bs) :
    0 ≤ v ∧ v < ((256 ^ k : Nat) : Int) ∧ bs = beBytes k v.toNat := by
  unfold packUnsigned at h
  split at h
  · rename_i hc; exact ⟨hc.1, hc.2, by simpa using h.symm⟩
  · cases h

theorem pow256_even (k : Nat) (hk : 0 < k) : 2 * (256 ^ k / 2) = 256 ^ k := by
  obtain ⟨j, rfl⟩ : ∃ j, k = j + 1 := ⟨k - 1, by omega⟩
  rw [Nat.pow_succ]; omega

theorem unpackSigned_beBytes {k : Nat} {n : Nat} (hn : n < 256 ^ k) :
    unpackSigned (beBytes k n) =
      if n < 256 ^ k / 2 then (n : Int) else (n : Int) - ((256 ^ k : Nat) : Int) := by
  simp [unpackSigned, beNat_beBytes k n hn]

theorem unpackSigned_packSigned {k : Nat} (hk : 0 < k) {v : Int} {bs : Bytes}
    (h : packSigned k v = some bs) : unpackSigned bs = v := by
  obtain ⟨h1, h2, rfl⟩ := packSigned_some h
  have he := pow256_even k hk
  have hp : 0 < 256 ^ k := Nat.pow_pos (by decide)
  have hm0 : 0 ≤ v % ((256 ^ k : Nat) : Int) := Int.emod_nonneg _ (by omega)
  have hmlt : v % ((256 ^ k : Nat) : Int) < ((256 ^ k : Nat) : Int) := Int.emod_lt_of_pos _ (by omega)
  rw [unpackSigned_beBytes (by omega)]
  generalize 256 ^ k = M at *
  by_cases hv : 0 ≤ v
  · rw [Int.emod_eq_of_lt hv (by omega)] at *
    split <;> omega
  · have : v % (M : Int) = v + M := by
      rw [← Int.add_emod_right v (M : Int)]
      exact Int.emod_eq_of_lt (by omega) (by omega)
    rw [this] at *
    split <;> omega

theorem packSigned_unpackSigned {bs : Bytes} (hk : 0 < bs.length) :
    packSigned bs.length (unpackSigned bs) = some bs := by
  have he := pow256_even bs.length hk
  have hlt := beNat_lt bs
  have hb := beBytes_beNat bs
  unfold packSigned unpackSigned
  generalize hM : 256 ^ bs.length = M at *
  generalize hN : beNat bs = N at *
  have hr : -((M / 2 : Nat) : Int) ≤ (if N < M / 2 then (N : Int) else (N : Int) - (M : Nat)) ∧
      (if N < M / 2 then (N : Int) else (N : Int) - (M : Nat)) < ((M / 2 : Nat) : Int) := by
    split <;> omega
  simp only
  rw [if_pos hr]
  have : ((if N < M / 2 then (N : Int) else (N : Int) - (M : Nat)) % ((M : Nat) : Int)).toNat = N := by
    split
    · rw [Int.emod_eq_of_lt (by omega) (by omega)]; omega
    · rw [← Int.add_emod_right, Int.emod_eq_of_lt (by omega) (by omega)]; omega
  rw [this, hb]

theorem unpackUnsigned_packUnsigned {k : Nat} {v : Int} {bs : Bytes}
    (h : packUnsigned k v = some bs) : unpackUnsigned bs = v := by
  obtain ⟨h1, h2, rfl⟩ := packUnsigned_some h
  unfold unpackUnsigned
  rw [beNat_beBytes _ _ (by omega)]; omega

theorem packUnsigned_unpackUnsigned {bs : Bytes} :
    packUnsigned bs.length (unpackUnsigned bs) = some bs := by
  have hlt := beNat_lt bs
  unfold packUnsigned unpackUnsigned
  rw [if_pos (by omega)]
  simp [beBytes_beNat]

theorem unpackUnsigned_nonneg (bs : Bytes) : 0 ≤ unpackUnsigned bs := by
  unfold unpackUnsigned; omega

theorem unpackSigned_range {bs : Bytes} (hk : 0 < bs.length) :
    -((256 ^ bs.length / 2 : Nat) : Int) ≤ unpackSigned bs ∧
      unpackSigned bs < ((256 ^ bs.length / 2 : Nat) : Int) := by
  have := packSigned_some (packSigned_unpackSigned hk)
  exact ⟨this.1, this.2.1⟩

theorem unpackUnsigned_range {bs : Bytes} :
    0 ≤ unpackUnsigned bs ∧ unpackUnsigned bs < ((256 ^ bs.length : Nat) : Int) := by
  have := packUnsigned_some (packUnsigned_unpackUnsigned (bs := bs))
  exact ⟨this.1, this.2.1⟩

theorem packS_length (n : Nat) (b : Bytes) : (packS n b).length = n := by
  simp [packS]; omega

theorem packS_self (b : Bytes) : packS b.length b = b := by
  simp [packS]

theorem Fmt.pack_length {f : Fmt} {v : PyObj} {bs : Bytes} (h : f.pack v = some bs) :
    bs.length = f.size := by
  unfold Fmt.pack at h
  split at h
  all_goals first
    | (obtain ⟨-, -, rfl⟩ := packSigned_some h; simp [Fmt.size])
    | (obtain ⟨-, -, rfl⟩ := packUnsigned_some h; simp [Fmt.size])
    | (simp only [Option.some.injEq] at h; subst h; simp [Fmt.size, packS_length])
    | cases h

/-- items whose unpacking gives back the packed argument: ints, and byte strings of the exact size -/
def Fmt.fits : Fmt → PyObj → Prop
  | .s n, .bytes bs => bs.length = n
  | _, .int _ => True
  | _, _ => False

theorem Fmt.unpack_pack {f : Fmt} {v : PyObj} {bs : Bytes} (hf : f.fits v) (h : f.pack v = some bs) :
    f.unpack bs = v := by
  unfold Fmt.pack at h
  split at h
  all_goals first
    | (simp only [Fmt.unpack, unpackSigned_packSigned (by decide) h])
    | (simp only [Fmt.unpack, unpackUnsigned_packUnsigned h])
    | (simp only [Option.some.injEq] at h; subst h; simp only [Fmt.fits] at hf; subst hf
       simp only [Fmt.unpack, packS_self])
    | cases h

/-- pointwise `Fmt.fits` -/
def fitsAll : List Fmt → List PyObj → Prop
  | [], [] => True
  | f :: fs, v :: vs => f.fits v ∧ fitsAll fs vs
  | _, _ => False

theorem structPack_length {fs : List Fmt} {vs : List PyObj} {bs : Bytes}
    (h : structPack fs vs = some bs) : bs.length = calcsize fs := by
  induction fs generalizing vs bs with
  | nil =>
    cases vs with
    | nil => simp [structPack] at h; subst h; rfl
    | cons v vs => simp [structPack] at h
  | cons f fs ih =>
    cases vs with
    | nil => simp [structPack] at h
    | cons v vs =>
      simp only [structPack, Option.bind_eq_bind, Option.bind_eq_some_iff, Option.pure_def,
        Option.some.injEq] at h
      obtain ⟨b, hb, c, hc, rfl⟩ := h
      simp [calcsize, Fmt.pack_length hb, ih hc]

theorem structItems_pack {fs : List Fmt} {vs : List PyObj} {bs : Bytes}
    (hf : fitsAll fs vs) (h : structPack fs vs = some bs) (rest : Bytes) :
    structItems fs (bs ++ rest) = vs := by
  induction fs generalizing vs bs with
  | nil =>
    cases vs with
    | nil => rfl
    | cons v vs => simp [structPack] at h
  | cons f fs ih =>
    cases vs with
    | nil => simp [structPack] at h
    | cons v vs =>
      simp only [structPack, Option.bind_eq_bind, Option.bind_eq_some_iff, Option.pure_def,
        Option.some.injEq] at h
      obtain ⟨b, hb, c, hc, rfl⟩ := h
      have hl := Fmt.pack_length hb
      simp only [structItems]
      rw [List.append_assoc, List.take_append_of_le_length (by omega), List.take_of_length_le (by omega),
        List.drop_append_of_le_length (by omega), List.drop_of_length_le (by omega), List.nil_append,
        Fmt.unpack_pack hf.1 hb, ih hf.2 hc]

theorem structUnpack_structPack {fs : List Fmt} {vs : List PyObj} {bs : Bytes}
    (hf : fitsAll fs vs) (h : structPack fs vs = some bs) : structUnpack fs bs = some vs := by
  unfold structUnpack
  rw [if_pos (structPack_length h)]
  have := structItems_pack hf h []
  simpa using this

theorem structUnpack_length {fs : List Fmt} {vs : List PyObj} {bs : Bytes}
    (h : structUnpack fs bs = some vs) : bs.length = calcsize fs := by
  unfold structUnpack at h; split at h
  · assumption
  · cases h

theorem structPack_append {fs gs : List Fmt} {vs ws : List PyObj} (hl : fs.length = vs.length) :
    structPack (fs ++ gs) (vs ++ ws) =
      (do let a ← structPack fs vs
          let b ← structPack gs ws
          pure (a ++ b)) := by
  induction fs generalizing vs with
  | nil => cases vs with
    | nil => simp [structPack]
    | cons => simp at hl
  | cons f fs ih =>
    cases vs with
    | nil => simp at hl
    | cons v vs =>
      simp only [List.cons_append, structPack]
      rw [ih (by simpa using hl)]
      cases f.pack v <;> simp
      cases structPack fs vs <;> simp
      cases structPack gs ws <;> simp

end Bolt
