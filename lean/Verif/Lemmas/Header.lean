import Verif.Lemmas.Struct
import Verif.Lemmas.Utf8
import Verif.Lemmas.Dict
import Verif.Model.Header
import Verif.Spec.Header
namespace Bolt
open Spec

theorem be4_length (n : Nat) : (be4 n).length = 4 := rfl

theorem beBytes4 (n : Nat) : beBytes 4 n = be4 n := by
  simp only [beBytes, be4, List.nil_append, List.cons_append]
  have h1 : n / 256 / 256 / 256 % 256 = n / 16777216 % 256 := by omega
  have h2 : n / 256 / 256 % 256 = n / 65536 % 256 := by omega
  rw [h1, h2]

theorem rangeA (n : Nat) (h : n < 2 ^ 31) :
    -((256 ^ 4 / 2 : Nat) : Int) ≤ (n : Int) ∧ (n : Int) < ((256 ^ 4 / 2 : Nat) : Int) := by
  omega
theorem rangeB (n : Nat) (h : ¬ n < 2 ^ 31) :
    ¬ (-((256 ^ 4 / 2 : Nat) : Int) ≤ (n : Int) ∧ (n : Int) < ((256 ^ 4 / 2 : Nat) : Int)) := by
  omega
theorem rangeC (n : Nat) (h : n < 2 ^ 31) : ((n : Int) % ((256 ^ 4 : Nat) : Int)).toNat = n := by omega

theorem packSigned4 (n : Nat) : packSigned 4 (n : Int) = if n < 2 ^ 31 then some (be4 n) else none := by
  unfold packSigned
  by_cases h : n < 2 ^ 31
  · rw [if_pos (rangeA n h), rangeC n h, if_pos h, beBytes4]
  · rw [if_neg (rangeB n h), if_neg h]

theorem structPack_i (v : Int) : structPack [.i] [.int v] = packSigned 4 v := by
  simp only [structPack, Fmt.pack]
  cases packSigned 4 v <;> simp

theorem int2bytesBe_of_some {v : Int} {b : Bytes} (h : packSigned 4 v = some b) : int2bytesBe v = .ok b := by
  rw [← structPack_i] at h
  simp only [int2bytesBe, h]

theorem int2bytesBe_of_none {v : Int} (h : packSigned 4 v = none) : int2bytesBe v = .error .structError := by
  rw [← structPack_i] at h
  simp only [int2bytesBe, h]

theorem int2bytesBe_lt {n : Nat} (h : n < 2 ^ 31) : int2bytesBe (n : Int) = .ok (be4 n) :=
  int2bytesBe_of_some (by rw [packSigned4, if_pos h])

theorem int2bytesBe_ge {n : Nat} (h : ¬ n < 2 ^ 31) : int2bytesBe (n : Int) = .error .structError :=
  int2bytesBe_of_none (by rw [packSigned4, if_neg h])

theorem strToBytesWithLen_ok {s : PyStr} {b : Bytes} (h1 : utf8Encode s = some b) (h : b.length < 2 ^ 31) :
    strToBytesWithLen (.str s) = .ok (be4 b.length ++ b) := by
  simp only [strToBytesWithLen, h1, int2bytesBe_lt h]; rfl

theorem strToBytesWithLen_item {v : PyObj} {b : Bytes} (h : strToBytesWithLen v = .ok b) :
    ∃ s, v = .str s ∧ HItem b s := by
  cases v with
  | str s =>
    refine ⟨s, rfl, ?_⟩
    cases hb : utf8Encode s with
    | none => simp [strToBytesWithLen, hb] at h
    | some body =>
      by_cases hl : body.length < 2 ^ 31
      · rw [strToBytesWithLen_ok hb hl] at h
        cases h; exact .str body s hl hb
      · simp only [strToBytesWithLen, hb, int2bytesBe_ge hl] at h
        cases h
  | _ => simp [strToBytesWithLen] at h

theorem bytes2intBe_of_length {bs : Bytes} (h : bs.length = 4) : bytes2intBe bs = .ok (unpackSigned bs) := by
  unfold bytes2intBe structUnpack
  have : calcsize [.i] = 4 := rfl
  rw [this, if_pos h]
  simp [structItems, Fmt.unpack, Fmt.size, List.take_of_length_le (Nat.le_of_eq h)]

theorem unpackSigned_be4 {n : Nat} (h : n < 2 ^ 31) : unpackSigned (be4 n) = n := by
  rw [← beBytes4, unpackSigned_beBytes (by omega)]
  rw [if_pos (by omega)]

/-- more rounds than bytes change nothing -/
theorem bytesToStrF_fuel (f g : Nat) (b : Bytes) (hf : b.length ≤ f) (hg : b.length ≤ g) :
    bytesToStrF f b = bytesToStrF g b := by
  induction f generalizing g b with
  | zero =>
    have : b = [] := List.eq_nil_of_length_eq_zero (by omega)
    subst this
    cases g <;> rfl
  | succ f ih =>
    cases g with
    | zero =>
      have : b = [] := List.eq_nil_of_length_eq_zero (by omega)
      subst this
      rfl
    | succ g =>
      simp only [bytesToStrF]
      by_cases he : b.isEmpty = true
      · rw [if_pos he, if_pos he]
      rw [if_neg he, if_neg he]
      by_cases h4 : 4 > b.length
      · rw [if_pos h4, if_pos h4]
      rw [if_neg h4, if_neg h4]
      have e : ∀ m, bytesToStrF f (b.drop (4 + m)) = bytesToStrF g (b.drop (4 + m)) := by
        intro m
        apply ih
        · rw [List.length_drop]; omega
        · rw [List.length_drop]; omega
      simp only [e]

/-- the loop unrolled once -/
theorem bytesToStr_eq (b : Bytes) : bytesToStr b =
    (if b.isEmpty then .ok []
    else if 4 > b.length then .error .decodeError
    else do
      let l0 ← bytes2intBe (b.take 4)
      let l := if l0 = -1 then 0 else l0
      if l < 0 then .error .decodeError
      else
        let n := 4 + l.toNat
        if n > b.length then .error .decodeError
        else match utf8Decode ((b.take n).drop 4) with
          | none => .error .unicodeDecodeError
          | some s => do
            let rest ← bytesToStr (b.drop n)
            pure (s :: rest)) := by
  unfold bytesToStr
  rw [bytesToStrF_fuel b.length (b.length + 1) b (Nat.le_refl _) (by omega)]
  simp only [bytesToStrF]
  have e : ∀ m, bytesToStrF b.length (b.drop m) = bytesToStrF (b.drop m).length (b.drop m) := by
    intro m
    apply bytesToStrF_fuel
    · rw [List.length_drop]; omega
    · omega
  simp only [e]
  rfl

theorem bytesToStr_nil : bytesToStr [] = .ok [] := rfl

theorem bytesToStr_short {b : Bytes} (h0 : b ≠ []) (h : b.length < 4) : bytesToStr b = .error .decodeError := by
  rw [bytesToStr_eq]
  simp [h0, h]

/-- one iteration of the loop, with the effective length named -/
theorem bytesToStr_step {b : Bytes} (h4 : 4 ≤ b.length) {l0 l : Int} (h0 : unpackSigned (b.take 4) = l0)
    (hl : (if l0 = -1 then 0 else l0) = l) :
    bytesToStr b = if l < 0 then .error .decodeError
      else if 4 + l.toNat > b.length then .error .decodeError
      else match utf8Decode ((b.take (4 + l.toNat)).drop 4) with
        | none => .error .unicodeDecodeError
        | some s => (bytesToStr (b.drop (4 + l.toNat))).map (fun ss => s :: ss) := by
  have hl4 : (b.take 4).length = 4 := by rw [List.length_take]; omega
  have hne : b.isEmpty = false := by cases b <;> simp_all
  rw [bytesToStr_eq, hne, bytes2intBe_of_length hl4, h0]
  simp only [Bool.false_eq_true, if_false, if_neg (show ¬ (4 > b.length) by omega), bind, Except.bind, hl]
  by_cases h1 : l < 0
  · simp only [if_pos h1]
  · simp only [if_neg h1]
    by_cases h2 : 4 + l.toNat > b.length
    · simp only [if_pos h2]
    · simp only [if_neg h2]
      cases utf8Decode ((b.take (4 + l.toNat)).drop 4) with
      | none => rfl
      | some s =>
        dsimp only
        cases bytesToStr (b.drop (4 + l.toNat)) <;> rfl

theorem bytesToStr_item {a : Bytes} {s : PyStr} (h : HItem a s) (r : Bytes) :
    bytesToStr (a ++ r) = (bytesToStr r).map (fun ss => s :: ss) := by
  cases h with
  | str body _ hlen hutf =>
    have hlen2 : (be4 body.length ++ body ++ r).length = 4 + body.length + r.length := by
      simp [be4_length]; omega
    have htake : (be4 body.length ++ body ++ r).take 4 = be4 body.length := by
      rw [List.append_assoc, List.take_append_of_le_length (by simp [be4_length])]
      rw [List.take_of_length_le (by simp [be4_length])]
    rw [bytesToStr_step (l := body.length) (by omega) rfl
      (by rw [htake, unpackSigned_be4 hlen]; rw [if_neg (by omega)])]
    rw [if_neg (show ¬ ((body.length : Int) < 0) by omega)]
    have h4 : 4 + (body.length : Int).toNat = (be4 body.length ++ body).length := by
      simp [be4_length]
    rw [if_neg (show ¬ (4 + (body.length : Int).toNat > (be4 body.length ++ body ++ r).length) by omega)]
    rw [h4, List.take_left, List.drop_left]
    have : (be4 body.length ++ body).drop 4 = body := by
      have := List.drop_left (l₁ := be4 body.length) (l₂ := body)
      rwa [be4_length] at this
    rw [this, utf8Decode_encode hutf]
  | null =>
    have hu : unpackSigned (([0xff, 0xff, 0xff, 0xff] ++ r : Bytes).take 4) = -1 := by
      simp only [List.cons_append, List.nil_append, List.take_succ_cons, List.take_zero]; decide
    rw [bytesToStr_step (l := 0) (by simp) hu rfl]
    rw [if_neg (by omega), if_neg (by simp)]
    simp only [Int.toNat_zero, Nat.add_zero, List.cons_append, List.nil_append, List.take_succ_cons,
      List.take_zero, List.drop_succ_cons, List.drop_zero]
    have : utf8Decode [] = some [] := by rw [utf8Decode.eq_def]
    rw [this]

theorem bytesToStr_of_items {b : Bytes} {ss : List PyStr} (h : HItems b ss) : bytesToStr b = .ok ss := by
  induction h with
  | nil => exact bytesToStr_nil
  | cons ha _ ih => rw [bytesToStr_item ha, ih]; rfl

theorem split4 {b : Bytes} (n : Nat) :
    b = b.take 4 ++ ((b.take (4 + n)).drop 4) ++ b.drop (4 + n) := by
  have : b.take 4 = (b.take (4 + n)).take 4 := by rw [List.take_take]; congr 1; omega
  rw [this, List.take_append_drop, List.take_append_drop]

theorem be4_of_unpack {bs : Bytes} (h : bs.length = 4) {n : Nat} (hu : unpackSigned bs = n) :
    bs = be4 n ∧ n < 2 ^ 31 := by
  have hr := unpackSigned_range (bs := bs) (by omega)
  have hp := packSigned_unpackSigned (bs := bs) (by omega)
  rw [hu, h] at hr hp
  have hn : n < 2 ^ 31 := by omega
  have hp' := packSigned4 n
  rw [if_pos hn, hp] at hp'
  exact ⟨Option.some.inj hp', hn⟩

theorem unpackSigned_neg_one {bs : Bytes} (h : bs.length = 4) (hu : unpackSigned bs = -1) :
    bs = [0xff, 0xff, 0xff, 0xff] := by
  have hp := packSigned_unpackSigned (bs := bs) (by omega)
  rw [hu, h] at hp
  have : packSigned 4 (-1) = some [0xff, 0xff, 0xff, 0xff] := by decide
  rw [this] at hp
  simpa using hp.symm

theorem items_of_bytesToStr (b : Bytes) : ∀ {ss : List PyStr}, bytesToStr b = .ok ss → HItems b ss := by
  induction hn : b.length using Nat.strongRecOn generalizing b with
  | ind m ih =>
    intro ss h
    by_cases he : b = []
    · subst he; rw [bytesToStr_nil] at h; cases h; exact .nil
    by_cases h4 : b.length < 4
    · rw [bytesToStr_short he h4] at h; cases h
    have hl4 : (b.take 4).length = 4 := by rw [List.length_take]; omega
    generalize h0 : unpackSigned (b.take 4) = l0
    generalize hl : (if l0 = -1 then 0 else l0) = l
    rw [bytesToStr_step (by omega) h0 hl] at h
    split at h
    · cases h
    split at h
    · cases h
    next hneg hle =>
    split at h
    · cases h
    next s hs =>
    cases hr : bytesToStr (b.drop (4 + l.toNat)) with
    | error e => rw [hr] at h; cases h
    | ok rest =>
      rw [hr] at h
      cases h
      have hrec := ih _ (by rw [← hn, List.length_drop]; omega) (b.drop (4 + l.toNat)) rfl hr
      have hsplit := split4 (b := b) l.toNat
      rw [hsplit]
      refine .cons ?_ hrec
      split at hl
      · next h1 =>
        subst hl
        have hb := unpackSigned_neg_one hl4 (h0.trans h1)
        rw [hb]
        have : ((b.take (4 + (0 : Int).toNat)).drop 4) = [] := by simp
        rw [this] at hs ⊢
        have h0 : utf8Decode [] = some [] := by rw [utf8Decode.eq_def]
        rw [h0] at hs; cases hs
        exact .null
      · next h1 =>
        have hln : unpackSigned (b.take 4) = (l.toNat : Int) := by omega
        obtain ⟨e1, e2⟩ := be4_of_unpack hl4 hln
        have hbl : ((b.take (4 + l.toNat)).drop 4).length = l.toNat := by
          rw [List.length_drop, List.length_take]; omega
        have := HItem.str _ s (by rw [hbl]; exact e2) (utf8Encode_decode _ hs)
        rw [hbl, ← e1] at this
        exact this

theorem bytesToStr_iff (b : Bytes) (ss : List PyStr) : bytesToStr b = .ok ss ↔ HItems b ss :=
  ⟨items_of_bytesToStr b, bytesToStr_of_items⟩

theorem bytesToStr_error (b : Bytes) : ∀ {e : PyExc}, bytesToStr b = .error e →
    e = .decodeError ∨ e = .unicodeDecodeError := by
  induction hn : b.length using Nat.strongRecOn generalizing b with
  | ind m ih =>
    intro e h
    by_cases he : b = []
    · subst he; rw [bytesToStr_nil] at h; cases h
    by_cases h4 : b.length < 4
    · rw [bytesToStr_short he h4] at h; cases h; exact .inl rfl
    generalize h0 : unpackSigned (b.take 4) = l0
    generalize hl : (if l0 = -1 then 0 else l0) = l
    rw [bytesToStr_step (by omega) h0 hl] at h
    split at h
    · cases h; exact .inl rfl
    split at h
    · cases h; exact .inl rfl
    split at h
    · cases h; exact .inr rfl
    cases hr : bytesToStr (b.drop (4 + l.toNat)) with
    | error e' =>
      rw [hr] at h; cases h
      exact ih _ (by rw [← hn, List.length_drop]; omega) (b.drop (4 + l.toNat)) rfl hr
    | ok rest => rw [hr] at h; cases h

theorem _root_.Bolt.Spec.HItem.length_ge {a : Bytes} {s : PyStr} (h : HItem a s) : 4 ≤ a.length := by
  cases h <;> simp [be4_length]

theorem _root_.Bolt.Spec.HItems.length_le {b : Bytes} {ss : List PyStr} (h : HItems b ss) : 4 * ss.length ≤ b.length := by
  induction h with
  | nil => simp
  | cons ha _ ih => have := ha.length_ge; simp; omega

/-! ### keys and values -/

theorem evens_flatten (kvs : List (PyStr × PyStr)) : evens (flatten kvs) = kvs.map Prod.fst := by
  induction kvs with
  | nil => rfl
  | cons a r ih => simp [flatten, evens, ih]

theorem odds_flatten (kvs : List (PyStr × PyStr)) : odds (flatten kvs) = kvs.map Prod.snd := by
  induction kvs with
  | nil => rfl
  | cons a r ih => simp [flatten, odds, ih]

theorem flatten_of_lengths (ss : List PyStr) (h : (evens ss).length = (odds ss).length) :
    ∃ kvs, ss = flatten kvs ∧ (evens ss).zip (odds ss) = kvs := by
  fun_induction evens ss with
  | case1 => exact ⟨[], rfl, rfl⟩
  | case2 a => simp [odds] at h
  | case3 a b r ih =>
    simp [odds] at h
    obtain ⟨kvs, h1, h2⟩ := ih h
    exact ⟨(a, b) :: kvs, by simp [flatten, ← h1], by simp [odds, h2]⟩

theorem zip_map_fst_snd {α β : Type} (l : List (α × β)) : (l.map Prod.fst).zip (l.map Prod.snd) = l := by
  induction l with
  | nil => rfl
  | cons a l ih => simp [ih]

theorem headerFromBytes_flatten {b : Bytes} {kvs : List (PyStr × PyStr)} (h : HItems b (flatten kvs)) :
    headerFromBytes b = .ok (PyDict.ofPairs kvs) := by
  unfold headerFromBytes
  rw [bytesToStr_of_items h]
  change (if (evens (flatten kvs)).length != (odds (flatten kvs)).length then _ else _) = _
  rw [evens_flatten, odds_flatten, zip_map_fst_snd]
  simp [pure, Except.pure]

theorem headerFromBytes_ok {b : Bytes} {d : PyDict PyStr PyStr} (h : headerFromBytes b = .ok d) :
    ∃ kvs, HItems b (flatten kvs) ∧ d = PyDict.ofPairs kvs := by
  unfold headerFromBytes at h
  cases hs : bytesToStr b with
  | error e => rw [hs] at h; cases h
  | ok ss =>
    rw [hs] at h
    change (if (evens ss).length != (odds ss).length then _ else _) = _ at h
    split at h
    · cases h
    · next hl =>
      obtain ⟨kvs, h1, h2⟩ := flatten_of_lengths ss (by simpa using hl)
      cases h
      exact ⟨kvs, h1 ▸ items_of_bytesToStr b hs, by rw [h2]⟩

theorem headerFromBytes_error {b : Bytes} {e : PyExc} (h : headerFromBytes b = .error e) :
    e = .decodeError ∨ e = .unicodeDecodeError := by
  unfold headerFromBytes at h
  cases hs : bytesToStr b with
  | error e' => rw [hs] at h; cases h; exact bytesToStr_error b hs
  | ok ss =>
    rw [hs] at h
    change (if (evens ss).length != (odds ss).length then _ else _) = _ at h
    split at h
    · cases h; exact .inl rfl
    · cases h

/-! ### serialisation -/

theorem headerToBytes_items {hd : SofaHeader} {b : Bytes} (h : headerToBytes hd = .ok b) :
    ∃ kvs, hd = strHeader kvs ∧ HItems b (flatten kvs) := by
  induction hd generalizing b with
  | nil => simp [headerToBytes] at h; subst h; exact ⟨[], rfl, .nil⟩
  | cons a rest ih =>
    obtain ⟨k, v⟩ := a
    unfold headerToBytes at h
    cases h1 : strToBytesWithLen (.str k) with
    | error e => rw [h1] at h; cases h
    | ok x =>
      cases h2 : strToBytesWithLen v with
      | error e => rw [h1, h2] at h; cases h
      | ok y =>
        cases h3 : headerToBytes rest with
        | error e => rw [h1, h2, h3] at h; cases h
        | ok z =>
          rw [h1, h2, h3] at h
          cases h
          obtain ⟨kvs, e1, e2⟩ := ih h3
          obtain ⟨k', hk, ik⟩ := strToBytesWithLen_item h1
          obtain ⟨v', hv, iv⟩ := strToBytesWithLen_item h2
          cases hk
          subst hv
          refine ⟨(k, v') :: kvs, by simp [strHeader, e1], ?_⟩
          show HItems (x ++ y ++ z) (k :: v' :: flatten kvs)
          rw [List.append_assoc]
          exact .cons ik (.cons iv e2)

theorem headerFromBytes_toBytes {hd : SofaHeader} (hn : PyDict.NodupKeys hd) {b : Bytes}
    (h : headerToBytes hd = .ok b) : ∃ d, headerFromBytes b = .ok d ∧ strHeader d = hd := by
  obtain ⟨kvs, e1, e2⟩ := headerToBytes_items h
  refine ⟨_, headerFromBytes_flatten e2, ?_⟩
  have : PyDict.NodupKeys kvs := by
    unfold PyDict.NodupKeys at *
    rw [e1] at hn
    simpa [strHeader, Function.comp_def] using hn
  rw [PyDict.ofPairs_of_nodup this, e1]

/-- a header of strings with short encodable strings serialises -/
theorem headerToBytes_cons_str (k v : PyStr) (rest : SofaHeader) :
    headerToBytes ((k, .str v) :: rest) = (do
      let a ← strToBytesWithLen (.str k)
      let b ← strToBytesWithLen (.str v)
      let c ← headerToBytes rest
      pure (a ++ b ++ c)) := rfl

end Bolt
