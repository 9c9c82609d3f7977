import Verif.Lemmas.Flow
import Verif.Lemmas.Base64Dec

/-!
# Encodings: C10 – C19, C22
-/

namespace Chalamet
open Spec

/-! ## C10: bytes and bits -/

/-- **C10.** Bytes to bits and back is the identity. -/
theorem C10_bytes_bits_bytes (prof : Profile) (bytes : List U8) :
    bitsToBytesLe prof (bytesToBitsLe bytes) = .ok bytes := by
  obtain ⟨bs, h1, h2, h3⟩ := bitsToBytesLe_spec prof (bytesToBitsLe bytes)
  rw [h1]
  congr 1
  apply leNat_inj
  · rw [h2, bytesToBitsLe_length]; omega
  · rw [h3, bytesToBitsLe_val]

/-- **C10.** Bits to bytes and back is the identity up to zero padding to a whole byte. -/
theorem C10_bits_bytes_bits (prof : Profile) (bits : List Bool) :
    ∃ bytes, bitsToBytesLe prof bits = .ok bytes ∧ bytes.length = (bits.length + 7) / 8 ∧
      bytesToBitsLe bytes = bits ++ List.replicate (8 * ((bits.length + 7) / 8) - bits.length) false := by
  obtain ⟨bs, h1, h2, h3⟩ := bitsToBytesLe_spec prof bits
  refine ⟨bs, h1, h2, ?_⟩
  apply bitsNat_inj
  · rw [bytesToBitsLe_length, h2]; simp; omega
  · rw [bytesToBitsLe_val, h3, bitsNat_append]
    have : ∀ n, bitsNat (List.replicate n false) = 0 := by
      intro n; induction n with
      | zero => rfl
      | succ n ih => simp [List.replicate_succ, bitsNat, ih]
    rw [this]; simp

/-- Bit `i` of the bit string is bit `i` of the little-endian integer. -/
theorem C10_bits_value (bytes : List U8) :
    (bytesToBitsLe bytes).length = 8 * bytes.length ∧ bitsNat (bytesToBitsLe bytes) = leNat bytes :=
  ⟨bytesToBitsLe_length bytes, bytesToBitsLe_val bytes⟩

example : bitsToBytesLe .debug [true, false, true, true, false, false, false, false, true] =
    .ok [13#8, 1#8] := by decide +kernel

/-! ## C11: u32 and bits -/

/-- **C11.** Taking `n ≤ 32` bits of `x` and reading them back gives `x mod 2^n`. -/
theorem C11_u32_bits_u32 (prof : Profile) (x : U32) (n : Nat) (h : n ≤ 32) :
    ∃ bits, u32ToBitsLe x n = .ok bits ∧ bits.length = n ∧
      bitsToU32Le prof bits = .ok (BitVec.ofNat 32 (x.toNat % 2 ^ n)) := by
  obtain ⟨bits, h1, h2, h3⟩ := u32ToBitsLe_ok (x := x) h
  refine ⟨bits, h1, h2, ?_⟩
  rw [bitsToU32Le_ok (by omega), h3]

/-- **C11.** Up to 32 bits are read as a little-endian number, more are refused. -/
theorem C11_bits_u32 (prof : Profile) (bits : List Bool) :
    (bits.length ≤ 32 → bitsToU32Le prof bits = .ok (BitVec.ofNat 32 (bitsNat bits)) ∧
      bitsNat bits < 2 ^ 32) ∧
    (32 < bits.length → bitsToU32Le prof bits = .err .inputSize) := by
  refine ⟨fun h => ⟨bitsToU32Le_ok h, ?_⟩, bitsToU32Le_err⟩
  exact lt_of_lt_of_le (bitsNat_lt bits) (Nat.pow_le_pow_right (by omega) h)

/-- **C11.** Asking for more than 32 bits panics. -/
theorem C11_too_many_bits (x : U32) (n : Nat) (h : 32 < n) : u32ToBitsLe x n = .panic :=
  u32ToBitsLe_panic h

example : (u32ToBitsLe 0x1F5#32 9) =
    .ok [true, false, true, false, true, true, true, true, true] := by decide +kernel

/-! ## C12: rows are digits -/

/-- **C12.** A row is the list of base-`2^b` digits of the element read as a little-endian integer;
every digit is below `2^b`. The same holds for the key-value row constructor. -/
theorem C12_row_digits (prof : Profile) (str : List Char) (e : List U8) (b w : Nat)
    (hdec : b64Decode str = .ok e) (hb : b ≤ 32) (hlen : (w - 1) * b ≤ 8 * e.length) :
    ∃ row, constructRow prof str b w = .ok row ∧ row.length = w ∧
      ∀ j (h : j < row.length), (row[j]).toNat = leNat e / 2 ^ (b * j) % 2 ^ b := by
  refine ⟨rowOf b w e, constructRow_ok hb hdec hlen, rowOf_length _ _ _, ?_⟩
  intro j h
  simp only [rowOf, List.getElem_map, List.getElem_range, BitVec.toNat_ofNat]
  have h2 : 2 ^ b ≤ 2 ^ 32 := Nat.pow_le_pow_right (by omega) hb
  have h1 := digit_lt b (leNat e) j
  exact Nat.mod_eq_of_lt (by omega)

/-- **C12 (key-value rows).** -/
theorem C12_kv_row_digits (prof : Profile) (str : List Char) (e : List U8) (b T : Nat)
    (hdec : b64Decode str = .ok e) (hb1 : 1 ≤ b) (hb : b ≤ 32)
    (hlen : (width T b - 1) * b ≤ 8 * e.length) :
    ∃ row, kvConstructRow prof str b T = .ok row ∧ row.length = width T b ∧
      ∀ j (h : j < row.length), (row[j]).toNat = leNat e / 2 ^ (b * j) % 2 ^ b := by
  have : kvConstructRow prof str b T = constructRow prof str b (width T b) := by
    unfold kvConstructRow
    rw [getRowWidth_ok (by omega)]
    rfl
  rw [this]
  exact C12_row_digits prof str e b _ hdec hb hlen

example : constructRow .debug "EjQ=".toList 5 4 = .ok [18#32, 0#32, 13#32, 0#32] := by
  decide +kernel

/-! ## C13, C14: element round trip -/

/-- **C13.** If `b` does not divide `T`, encoding an element of `T` bits (`T = 8 * bytes`) as a row
and decoding the row returns the bytes. -/
theorem C13_element_round_trip (prof : Profile) (e : List U8) (b T : Nat)
    (hb1 : 1 ≤ b) (hb : b ≤ 32) (hT : T = 8 * e.length) (hdvd : ¬ b ∣ T) :
    (do let w ← getRowWidth T b
        let row ← constructRow prof (b64Encode e) b w
        bytesFromU32Slice prof row b T) = .ok e := by
  rw [getRowWidth_ok (by omega), Res.bind_ok,
    constructRow_ok hb (b64Decode_encode e) (by rw [← hT]; exact width_mul_le (by omega)),
    Res.bind_ok]
  obtain ⟨bytes, h1, h2, h3⟩ := decode_digits (prof := prof) (N := leNat e) (by omega) hb hdvd
  unfold rowOf
  rw [h1]
  congr 1
  apply leNat_inj
  · omega
  · rw [h3, hT]
    apply Nat.mod_eq_of_lt
    have := leNat_lt e
    rwa [show (256 : Nat) = 2 ^ 8 by rfl, ← Nat.pow_mul] at this

/-- **C13 (longer elements).** For elements of at least `T` bits, what comes back is the first `T`
bits, padded with zeroes to whole bytes. -/
theorem C13_truncation (prof : Profile) (e : List U8) (b T : Nat)
    (hb1 : 1 ≤ b) (hb : b ≤ 32) (hT : T ≤ 8 * e.length) (hdvd : ¬ b ∣ T) :
    ∃ bytes, (do let w ← getRowWidth T b
                 let row ← constructRow prof (b64Encode e) b w
                 bytesFromU32Slice prof row b T) = .ok bytes ∧
      bytes.length = (T + 7) / 8 ∧ leNat bytes = leNat e % 2 ^ T := by
  rw [getRowWidth_ok (by omega), Res.bind_ok,
    constructRow_ok (w := (T + b - 1) / b) hb (b64Decode_encode e)
      (le_trans (width_mul_le (by omega)) hT),
    Res.bind_ok]
  exact decode_digits (prof := prof) (N := leNat e) (by omega) hb hdvd

example : ¬ (9 ∣ 8 * 32) := by decide

/-- **C14.** If `b` divides `T` the last digit is dropped: the decoded bytes are the first `T - b`
bits of the element, in `⌈(T-b)/8⌉` bytes. -/
theorem C14_last_digit_lost (prof : Profile) (e : List U8) (b T : Nat)
    (hb1 : 1 ≤ b) (hb : b ≤ 32) (hT0 : 0 < T) (hT : T ≤ 8 * e.length) (hdvd : b ∣ T) :
    ∃ bytes, (do let w ← getRowWidth T b
                 let row ← constructRow prof (b64Encode e) b w
                 bytesFromU32Slice prof row b T) = .ok bytes ∧
      bytes.length = (T - b + 7) / 8 ∧ leNat bytes = leNat e % 2 ^ (T - b) := by
  rw [getRowWidth_ok (by omega), Res.bind_ok,
    constructRow_ok (w := (T + b - 1) / b) hb (b64Decode_encode e)
      (le_trans (width_mul_le (by omega)) hT),
    Res.bind_ok]
  exact decode_digits_dvd (prof := prof) (N := leNat e) (by omega) hb hT0 hdvd

/-- **C14, exact condition.** With `b` dividing `T = 8 * bytes`, the element survives exactly when
`b < 8` and its `b` most significant bits are zero. In particular no element survives for `b ≥ 8`. -/
theorem C14_round_trip_iff (prof : Profile) (e : List U8) (b T : Nat)
    (hb1 : 1 ≤ b) (hb : b ≤ 32) (hT0 : 0 < T) (hT : T = 8 * e.length) (hdvd : b ∣ T) :
    (do let w ← getRowWidth T b
        let row ← constructRow prof (b64Encode e) b w
        bytesFromU32Slice prof row b T) = .ok e ↔ b < 8 ∧ leNat e < 2 ^ (T - b) := by
  obtain ⟨bytes, h1, h2, h3⟩ := C14_last_digit_lost prof e b T hb1 hb hT0 (by omega) hdvd
  have hbT : b ≤ T := Nat.le_of_dvd hT0 hdvd
  rw [h1, Res.ok.injEq]
  constructor
  · intro h
    rw [h] at h2 h3
    exact ⟨by omega, by rw [h3]; exact Nat.mod_lt _ (Nat.two_pow_pos _)⟩
  · rintro ⟨h8, hlt⟩
    apply leNat_inj
    · omega
    · rw [h3, Nat.mod_eq_of_lt hlt]

/-- Refutation of the unconditional round trip: elem_size 256 and 8-bit plaintexts. -/
theorem C14_refuted (prof : Profile) (e : List U8) (he : e.length = 32) :
    (do let w ← getRowWidth 256 8
        let row ← constructRow prof (b64Encode e) 8 w
        bytesFromU32Slice prof row 8 256) ≠ .ok e := by
  rw [Ne, C14_round_trip_iff prof e 8 256 (by omega) (by omega) (by omega) (by omega) (by decide)]
  omega

example : bytesFromU32Slice .debug [0x12#32, 0x34#32] 8 16 = .ok [0x12#8] := by decide +kernel

/-! ## C15: base64 -/

theorem b64Tail_total (l : List Char) : (∃ e, b64Tail l = .ok e) ∨ b64Tail l = .err .base64 := by
  unfold b64Tail
  split
  · exact Or.inl ⟨_, rfl⟩
  · split
    · dsimp only; split
      · exact Or.inl ⟨_, rfl⟩
      · exact Or.inr rfl
    · exact Or.inr rfl
  · split
    · dsimp only; split
      · exact Or.inl ⟨_, rfl⟩
      · exact Or.inr rfl
    · exact Or.inr rfl
  · exact Or.inr rfl

theorem b64Decode_total (l : List Char) :
    (∃ e, b64Decode l = .ok e) ∨ b64Decode l = .err .base64 := by
  induction l using b64Decode.induct with
  | case1 => exact Or.inl ⟨_, rfl⟩
  | case2 x y => rw [b64Decode]; exact b64Tail_total _
  | case3 x y z h => rw [b64Decode]; exacts [b64Tail_total _, h]
  | case4 x y => rw [b64Decode]; exact b64Tail_total _
  | case5 x y z w rest h1 h2 a b c d ha hb hc hd ih =>
    rw [b64Decode]
    · rw [ha, hb, hc, hd]
      dsimp only
      rcases ih with ⟨e, he⟩ | he
      · rw [he]; exact Or.inl ⟨_, rfl⟩
      · rw [he]; exact Or.inr rfl
    · exact h1
    · exact h2
  | case6 x y z w rest h1 h2 h3 =>
    rw [b64Decode]
    · split
      · rename_i a b c d ha hb hc hd
        exact absurd hd (by intro; exact h3 _ _ _ _ ha hb hc hd)
      · exact Or.inr rfl
    · exact h1
    · exact h2
  | case7 l h1 h2 h3 h4 h5 =>
    rw [b64Decode]
    · exact b64Tail_total _
    all_goals assumption

/-- **C15.** Decoding an encoding returns the bytes; the encoding is injective and has
`4*ceil(n/3)` characters. -/
theorem C15_base64 (x y : List U8) :
    b64Decode (b64Encode x) = .ok x ∧ (b64Encode x = b64Encode y → x = y) ∧
      (b64Encode x).length = 4 * ((x.length + 2) / 3) := by
  refine ⟨b64Decode_encode x, ?_, b64Encode_length x⟩
  intro h
  have := b64Decode_encode x
  rw [h, b64Decode_encode y] at this
  cases this
  rfl

example : b64Encode [77#8, 97#8, 110#8, 33#8] = "TWFuIQ==".toList := by decide +kernel

/-- **C15 (acceptance).** The decoder accepts a string with value `e` exactly when the string is the
encoding of `e` with some of its trailing `=` left out; it refuses every other string with an error
and never panics. -/
theorem C15_accepted_strings (s : List Char) :
    (∀ e, b64Decode s = .ok e ↔ ∃ k, s ++ List.replicate k '=' = b64Encode e) ∧
    ((¬ ∃ e k, s ++ List.replicate k '=' = b64Encode e) → b64Decode s = .err .base64) := by
  have hiff : ∀ e, b64Decode s = .ok e ↔ ∃ k, s ++ List.replicate k '=' = b64Encode e := by
    intro e
    constructor
    · intro h
      obtain ⟨k, hk⟩ := b64Decode_sound s e h
      exact ⟨k, hk.symm⟩
    · rintro ⟨k, hk⟩
      exact b64Decode_unpadded e s k hk.symm
  refine ⟨hiff, fun h => ?_⟩
  rcases b64Decode_total s with ⟨e, he⟩ | he
  · exact absurd ⟨e, (hiff e).1 he⟩ h
  · exact he

/-- The three accepted spellings of `[97]`, and strings that are refused: wrong trailing bits, padding
in the middle, a lone character, a character outside the alphabet. -/
example : b64Decode "YQ==".toList = .ok [97#8] ∧ b64Decode "YQ=".toList = .ok [97#8] ∧
    b64Decode "YQ".toList = .ok [97#8] ∧ b64Decode "YR==".toList = .err .base64 ∧
    b64Decode "YQ==YQ==".toList = .err .base64 ∧ b64Decode "Y".toList = .err .base64 ∧
    b64Decode "Y-==".toList = .err .base64 := by decide +kernel

/-! ## C17: element lengths -/

/-- **C17.** Row construction, for `1 ≤ b ≤ 32`: malformed base64 is an error; an element with fewer
than `(w-1)*b` bits panics; every other element gives a row that only depends on its first `w*b`
bits. -/
theorem C17_element_length (prof : Profile) (str : List Char) (b w : Nat) (hb : b ≤ 32) :
    (b64Decode str = .err .base64 ∧ constructRow prof str b w = .err .base64) ∨
    (∃ e, b64Decode str = .ok e ∧
      (8 * e.length < (w - 1) * b → constructRow prof str b w = .panic) ∧
      ((w - 1) * b ≤ 8 * e.length → ∃ row, constructRow prof str b w = .ok row ∧
        ∀ e', leNat e' % 2 ^ (b * w) = leNat e % 2 ^ (b * w) → rowOf b w e' = row)) := by
  rcases b64Decode_total str with ⟨e, he⟩ | he
  · refine Or.inr ⟨e, he, ?_, ?_⟩
    · intro h
      unfold constructRow
      rw [he, Res.bind_ok, rowOfBits_panic _ _ _ _ hb (by rw [bytesToBitsLe_length]; exact h)]
    · intro h
      refine ⟨_, constructRow_ok hb he h, ?_⟩
      intro e' h'
      unfold rowOf
      apply List.map_congr_left
      intro j hj
      rw [List.mem_range] at hj
      congr 1
      have key : ∀ N, digit b N j = digit b (N % 2 ^ (b * w)) j := by
        intro N
        unfold digit
        have hle : b * j + b ≤ b * w := by
          calc b * j + b = b * (j + 1) := by ring
            _ ≤ b * w := Nat.mul_le_mul_left _ hj
        have hs : 2 ^ (b * w) = 2 ^ (b * j) * 2 ^ (b * w - b * j) := by
          rw [← Nat.pow_add]; congr 1; omega
        rw [hs, Nat.mod_mul_right_div_self, Nat.mod_mod_of_dvd]
        exact Nat.pow_dvd_pow 2 (by omega)
      rw [key (leNat e'), key (leNat e), h']
  · exact Or.inl ⟨he, by unfold constructRow; rw [he]; rfl⟩

/-- Both failure modes occur: one-byte element in a 16-bit slot, and a bad character. -/
example : constructRow .debug "QQ==".toList 5 4 = .panic ∧
    constructRow .debug "Q*==".toList 5 4 = .err .base64 := by decide +kernel

/-! ## C18: row width -/

/-- **C18.** The row width is the least `w` with `w*b ≥ T`; `b = 0` panics. -/
theorem C18_row_width (T b : Nat) :
    (b = 0 → getRowWidth T b = .panic) ∧
    (0 < b → ∃ w, getRowWidth T b = .ok w ∧ T ≤ w * b ∧ ∀ w', T ≤ w' * b → w ≤ w') := by
  refine ⟨fun h => by simp [getRowWidth, h], fun h => ⟨_, getRowWidth_ok h, ?_, ?_⟩⟩
  · have := Nat.lt_div_mul_add (a := T + b - 1) h
    omega
  · intro w' hw'
    rw [Nat.div_le_iff_le_mul_add_pred h]
    rw [Nat.mul_comm]
    omega

/-! ## C19: scaling constants -/

/-- **C19.** For `1 ≤ b ≤ 31`: the plaintext modulus is `2^b`, factor times `2^b` is `2^32`, and the
rounding floor is half the factor; the values do not depend on the build profile. -/
theorem C19_scaling (prof : Profile) (b : Nat) (hb1 : 1 ≤ b) (hb : b ≤ 31) :
    ∃ p d f : U32, getPlaintextSize prof b = .ok p ∧ getRoundingFactor prof b = .ok d ∧
      getRoundingFloor prof b = .ok f ∧ p.toNat = 2 ^ b ∧ d.toNat * 2 ^ b = 2 ^ 32 ∧
      2 * f.toNat = d.toNat := by
  refine ⟨_, _, _, getPlaintextSize_ok hb, getRoundingFactor_ok hb, getRoundingFloor_ok hb1 hb,
    toNat_pow hb, ?_, ?_⟩
  · rw [toNat_factor hb1]; exact pow_split (by omega)
  · rw [toNat_factor hb1, BitVec.toNat_ofNat, Nat.mod_eq_of_lt
      (Nat.pow_lt_pow_right (by omega) (by omega)), ← Nat.pow_succ']
    congr 1; omega

/-- **C19, `b = 0`.** The factor is 0, and parsing any response panics. -/
theorem C19_zero_bits (prof : Profile) :
    getRoundingFactor prof 0 = .ok 0#32 ∧ (∀ (qp : QueryParams Unit) (resp : List U32), qp.plaintextBits = 0 →
      qp.parseIndexRow prof resp = .panic) := by
  have h0 : getRoundingFactor prof 0 = .ok 0#32 := by cases prof <;> decide +kernel
  have h1 : getRoundingFloor prof 0 = .ok 0#32 := by cases prof <;> decide +kernel
  refine ⟨h0, ?_⟩
  intro qp resp h
  unfold QueryParams.parseIndexRow
  rw [h, h0, h1]
  have h2 : getPlaintextSize prof 0 = .ok 1#32 := by cases prof <;> decide +kernel
  rw [h2]
  rfl

/-- **C19, `32 ≤ b < 2^32`.** Computing the factor panics in both profiles. -/
theorem C19_too_many_bits (prof : Profile) (b : Nat) (hb : 32 ≤ b) (hb2 : b < 2 ^ 32) :
    getRoundingFactor prof b = .panic := by
  unfold getRoundingFactor getPlaintextSize
  rw [Nat.mod_eq_of_lt hb2, if_neg (by omega)]
  cases prof <;> rfl

/-- **C19, `b ≥ 2^32`.** The exponent is cast to 32 bits (`plaintext_bits as u32`), so all three constants are those
of `b mod 2^32`: with the cases above, every value of `plaintext_bits` is covered, and `2^32 + 10` silently means 10. -/
theorem C19_truncated (prof : Profile) (b : Nat) :
    getPlaintextSize prof b = getPlaintextSize prof (b % 2 ^ 32) ∧
    getRoundingFactor prof b = getRoundingFactor prof (b % 2 ^ 32) ∧
    getRoundingFloor prof b = getRoundingFloor prof (b % 2 ^ 32) := by
  have h : getPlaintextSize prof b = getPlaintextSize prof (b % 2 ^ 32) := by
    unfold getPlaintextSize
    rw [Nat.mod_mod]
  refine ⟨h, ?_, ?_⟩
  · unfold getRoundingFactor
    rw [h]
  · unfold getRoundingFloor getRoundingFactor
    rw [h]

example : getRoundingFactor .debug (2 ^ 32 + 10) = .ok (BitVec.ofNat 32 (2 ^ 22)) := by
  rw [(C19_truncated .debug (2 ^ 32 + 10)).2.1]
  decide +kernel

/-! ## C22: response serialisation -/

/-- **C22.** Deserialising a serialised response returns it, also with trailing bytes; every strict
prefix is refused; the size is `8 + 4 * columns`. -/
theorem C22_response_round_trip (v : List U32) (h : v.length < 2 ^ 64) :
    (∀ extra, bincodeDeserialize (bincodeSerialize v ++ extra) = .ok v) ∧
    (∀ k, k < (bincodeSerialize v).length →
      bincodeDeserialize ((bincodeSerialize v).take k) = .err .bincode) ∧
    (bincodeSerialize v).length = 8 + 4 * v.length :=
  ⟨fun extra => bincodeDeserialize_serialize v extra h,
   fun k hk => bincodeDeserialize_prefix v k h hk, bincodeSerialize_length v⟩

example : bincodeSerialize [1#32, 0x01020304#32] =
    [2#8, 0#8, 0#8, 0#8, 0#8, 0#8, 0#8, 0#8, 1#8, 0#8, 0#8, 0#8, 4#8, 3#8, 2#8, 1#8] := by
  decide +kernel

end Chalamet
