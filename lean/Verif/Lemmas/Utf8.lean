import Verif.Model.Py
/-! UTF-8: encoding and decoding are inverse to each other. -/
namespace Bolt

theorem u8 {n : Nat} (h : n < 256) : (UInt8.ofNat n).toNat = n := by
  simp; omega

theorem isCont_ofNat {n : Nat} (h : n < 64) : isCont (UInt8.ofNat (128 + n)) = true := by
  unfold isCont; rw [u8 (by omega)]; simp; omega

theorem isCont_iff {b : UInt8} : isCont b = true ↔ 128 ≤ b.toNat ∧ b.toNat < 192 := by
  simp [isCont]

theorem utf8Decode_encodeCp {c : Nat} {b : Bytes} (h : utf8EncodeCp c = some b) (rest : Bytes) :
    utf8Decode (b ++ rest) = (utf8Decode rest).map (c :: ·) := by
  unfold utf8EncodeCp at h
  split at h
  · rename_i h1
    simp only [Option.some.injEq] at h; subst h
    simp only [List.cons_append, List.nil_append]
    rw [utf8Decode.eq_def]; dsimp only
    rw [u8 (by omega), if_pos (by omega)]
  split at h
  · rename_i h1 h2
    simp only [Option.some.injEq] at h; subst h
    simp only [List.cons_append, List.nil_append]
    rw [utf8Decode.eq_def]; dsimp only
    rw [u8 (n := 0xC0 + c / 64) (by omega), if_neg (by omega), if_pos (by omega),
      if_pos (isCont_ofNat (by omega)), u8 (by omega)]
    have : (192 + c / 64 - 192) * 64 + (128 + c % 64 - 128) = c := by omega
    rw [this]
  split at h
  · rename_i h1 h2 h3
    split at h
    · cases h
    rename_i h4
    simp only [Option.some.injEq] at h; subst h
    simp only [List.cons_append, List.nil_append]
    rw [utf8Decode.eq_def]; dsimp only
    rw [u8 (n := 0xE0 + c / 4096) (by omega), if_neg (by omega), if_neg (by omega),
      if_pos (by omega)]
    rw [isCont_ofNat (by omega), isCont_ofNat (by omega),
      u8 (n := 0x80 + c / 64 % 64) (by omega), u8 (n := 0x80 + c % 64) (by omega)]
    have : (224 + c / 4096 - 224) * 4096 + (128 + c / 64 % 64 - 128) * 64 + (128 + c % 64 - 128) = c := by
      omega
    rw [this]
    rw [if_pos (by simp; omega)]
  split at h
  · rename_i h1 h2 h3 h4
    simp only [Option.some.injEq] at h; subst h
    simp only [List.cons_append, List.nil_append]
    rw [utf8Decode.eq_def]; dsimp only
    rw [u8 (n := 0xF0 + c / 262144) (by omega), if_neg (by omega), if_neg (by omega),
      if_neg (by omega), if_pos (by omega)]
    rw [isCont_ofNat (by omega), isCont_ofNat (by omega), isCont_ofNat (by omega),
      u8 (n := 0x80 + c / 4096 % 64) (by omega), u8 (n := 0x80 + c / 64 % 64) (by omega),
      u8 (n := 0x80 + c % 64) (by omega)]
    have : (240 + c / 262144 - 240) * 262144 + (128 + c / 4096 % 64 - 128) * 4096 +
        (128 + c / 64 % 64 - 128) * 64 + (128 + c % 64 - 128) = c := by
      omega
    rw [this]
    rw [if_pos (by simp; omega)]
  · cases h

theorem utf8Decode_encode {s : PyStr} {b : Bytes} (h : utf8Encode s = some b) :
    utf8Decode b = some s := by
  induction s generalizing b with
  | nil => simp [utf8Encode] at h; subst h; rfl
  | cons c s ih =>
    simp only [utf8Encode, Option.bind_eq_bind, Option.bind_eq_some_iff, Option.pure_def,
      Option.some.injEq] at h
    obtain ⟨x, hx, y, hy, rfl⟩ := h
    rw [utf8Decode_encodeCp hx, ih hy]; rfl

theorem ofNat_eq {b : UInt8} {n : Nat} (h : n = b.toNat) : UInt8.ofNat n = b := by
  subst h; simp

theorem utf8Encode_decode (b : Bytes) : ∀ {s : PyStr}, utf8Decode b = some s → utf8Encode s = some b := by
  fun_induction utf8Decode b <;> intro s h <;>
    (try simp only [reduceCtorEq] at h) <;>
    (try simp only [Option.map_eq_some_iff] at h) <;>
    (try simp only [Option.some.injEq] at h)
  case case1 => subst h; rfl
  case case2 b0 r0 h0 ih =>
    obtain ⟨t, ht, rfl⟩ := h
    simp [utf8Encode, ih ht, utf8EncodeCp, h0]
  case case4 b0 h0 b1 r1 h1 h2 ih =>
    obtain ⟨t, ht, rfl⟩ := h
    have hb := isCont_iff.mp h2
    simp only [utf8Encode, ih ht]
    unfold utf8EncodeCp
    rw [if_neg (by omega), if_pos (by omega), ofNat_eq (b := b0) (by omega), ofNat_eq (b := b1) (by omega)]
    rfl
  case case7 b0 h0 b1 h1 b2 r h2 n h3 ih =>
    obtain ⟨t, ht, rfl⟩ := h
    simp only [Bool.and_eq_true, decide_eq_true_eq, isCont_iff] at h3
    obtain ⟨⟨hb1, hb2⟩, h5, h6⟩ := h3
    have hn : n = (b0.toNat - 224) * 4096 + (b1.toNat - 128) * 64 + (b2.toNat - 128) := rfl
    simp only [utf8Encode, ih ht]
    unfold utf8EncodeCp
    rw [if_neg (by omega), if_neg (by omega), if_pos (by omega), if_neg h6, ofNat_eq (b := b0) (by omega),
      ofNat_eq (b := b1) (by omega), ofNat_eq (b := b2) (by omega)]
    rfl
  case case10 b0 h0 b1 h1 b2 h2 b3 r h3 n h4 ih =>
    obtain ⟨t, ht, rfl⟩ := h
    simp only [Bool.and_eq_true, decide_eq_true_eq, isCont_iff] at h4
    obtain ⟨⟨⟨hb1, hb2⟩, hb3⟩, h5, h6⟩ := h4
    have hn : n = (b0.toNat - 240) * 262144 + (b1.toNat - 128) * 4096 + (b2.toNat - 128) * 64
      + (b3.toNat - 128) := rfl
    simp only [utf8Encode, ih ht]
    unfold utf8EncodeCp
    rw [if_neg (by omega), if_neg (by omega), if_neg (by omega), if_pos (by omega),
      ofNat_eq (b := b0) (by omega), ofNat_eq (b := b1) (by omega), ofNat_eq (b := b2) (by omega),
      ofNat_eq (b := b3) (by omega)]
    rfl

end Bolt
