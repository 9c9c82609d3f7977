import Verif.Model.Usize
import Verif.Props.Wide

/-!
# C106: machine-word size arithmetic

The size arithmetic of the library in 64-bit words, for all sizes a `usize` can hold, gives what the model with natural numbers
gives. The only hypothesis is that a byte string and its list of bits (one byte per bit in the code) fit in memory: fewer than
`2^63` bits.
-/

namespace Chalamet
open Spec

theorem getRowWidthU_eq (prof : Profile) {T : Nat} (hT : T < 2 ^ 64) (b : Nat) : getRowWidthU prof T b = getRowWidth T b := by
  unfold getRowWidthU getRowWidth
  by_cases hb : b = 0
  · rw [if_pos hb, if_pos hb]
  · rw [if_neg hb, if_neg hb]
    by_cases hr : T % b ≠ 0
    · rw [if_pos hr, if_pos hr]
      unfold usizeRes
      rw [if_pos]
      have hb2 : 2 ≤ b := by
        by_contra h
        have : b = 1 := by omega
        rw [this, Nat.mod_one] at hr
        exact hr rfl
      have : T / b ≤ T / 2 := Nat.div_le_div_left hb2 (by omega)
      omega
    · rw [if_neg hr, if_neg hr, Nat.add_zero]

theorem rowDigitU_eq (prof : Profile) {bits : List Bool} (hbits : bits.length < 2 ^ 63) {b i : Nat} (hb : b < 2 ^ 64)
    (hi : i * b < 2 ^ 64) : rowDigitU prof bits b i = rowDigit prof bits b i := by
  have hlo : usizeRes prof (i * b) = .ok (i * b) := if_pos hi
  have hmul : (i + 1) * b = i * b + b := by ring
  by_cases he : (i + 1) * b < 2 ^ 64
  · unfold rowDigitU rowDigit
    rw [show usizeRes prof ((i + 1) * b) = .ok ((i + 1) * b) from if_pos he, Res.bind_ok, hlo]
    rfl
  · have hi0 : i ≠ 0 := by
      rintro rfl
      simp only [Nat.zero_add, Nat.one_mul] at he
      exact he hb
    have hib : b ≤ i * b := Nat.le_mul_of_pos_left b (by omega)
    have hbig : 2 ^ 63 ≤ i * b := by omega
    have hn : rowDigit prof bits b i = .panic := by
      unfold rowDigit
      simp only
      rw [if_neg (by omega)]
      unfold sliceRes
      rw [if_neg (by omega)]
      rfl
    rw [hn]
    unfold rowDigitU
    cases prof
    · rw [show usizeRes .debug ((i + 1) * b) = .panic from if_neg he]
      rfl
    · rw [show usizeRes .release ((i + 1) * b) = .ok ((i + 1) * b % 2 ^ 64) from if_neg he, Res.bind_ok, hlo]
      have hmod : (i + 1) * b % 2 ^ 64 < i * b := by
        rw [hmul] at he ⊢
        rw [Nat.mod_eq_sub_mod (by omega), Nat.mod_eq_of_lt (by omega)]
        omega
      unfold sliceRes
      simp only [Res.bind_ok]
      rw [if_neg (show ¬ (i * b ≤ (i + 1) * b % 2 ^ 64 ∧ (i + 1) * b % 2 ^ 64 ≤ bits.length) by omega),
        if_neg (show ¬ (i * b ≤ bits.length ∧ bits.length ≤ bits.length) by omega)]
      split <;> rfl

/-- All digits of a row start below `elem_size`. -/
theorem start_lt {T b i : Nat} (hT : T < 2 ^ 64) (hi : i < width T b) : i * b < 2 ^ 64 := by
  rcases Nat.eq_zero_or_pos b with rfl | hb
  · simp
  · have h1 : (i + 1) * b ≤ width T b * b := Nat.mul_le_mul_right b hi
    have h2 : width T b * b ≤ T + b - 1 := by
      unfold width
      exact Nat.div_mul_le_self _ _
    have : (i + 1) * b = i * b + b := by ring
    omega

theorem rowU_eq (prof : Profile) {bits : List Bool} (hbits : bits.length < 2 ^ 63) {T b : Nat} (hT : T < 2 ^ 64) (hb : b < 2 ^ 64) :
    mapRes (rowDigitU prof bits b) (List.range (width T b)) = mapRes (rowDigit prof bits b) (List.range (width T b)) :=
  mapRes_congr fun _ hi => rowDigitU_eq prof hbits hb (start_lt hT (List.mem_range.1 hi))

/-- **C106 (index shards).** For all sizes below `2^64`, building an index shard in machine arithmetic has the outcome it has in the
model with unbounded numbers, in both build profiles. -/
theorem C106_index_build (prof : Profile) (prg : Prg) (seed : List U8) (strs : List (List Char)) (n m T b : Nat)
    (hT : T < 2 ^ 64) (hb : b < 2 ^ 64) (hmem : ∀ s ∈ strs, ∀ e, b64Decode s = .ok e → 8 * e.length < 2 ^ 63) :
    Shard.fromBase64StringsU prof prg seed strs n m T b = Shard.fromBase64Strings prof prg seed strs n m T b := by
  have h : constructRowsU prof strs m T b = constructRows prof strs m T b := by
    unfold constructRowsU constructRows
    rw [getRowWidthU_eq prof hT]
    rcases Nat.eq_zero_or_pos b with rfl | hb0
    · rfl
    rw [getRowWidth_ok hb0, Res.bind_ok, Res.bind_ok]
    apply mapRes_congr
    intro i _
    by_cases hi : i < strs.length
    · rw [rd_ok hi, Res.bind_ok, Res.bind_ok]
      unfold constructRowU constructRow
      cases hd : b64Decode strs[i] with
      | ok e =>
        rw [Res.bind_ok, Res.bind_ok]
        exact rowU_eq prof (by rw [(C10_bits_value e).1]; exact hmem _ (List.getElem_mem hi) e hd) hT hb
      | err e => rfl
      | panic => rfl
      | diverge => rfl
    · rw [rd_panic (by omega)]
      rfl
  unfold Shard.fromBase64StringsU Shard.fromBase64Strings IndexDatabase.newU IndexDatabase.new
  rw [h]

/-- **C106 (key-value shards).** The same for key-value shards built from strings. -/
theorem C106_kv_build (prof : Profile) (sha : Sha) (prg : Prg) (pseed : List U8) (segExp cap0 : Nat) (fp0 : Nat → Nat → U32)
    (filterSeed : List U8) (keys : List (List U8)) (values : List (List Char)) (n m T b : Nat)
    (hT : T < 2 ^ 64) (hb : b < 2 ^ 64) (hmem : ∀ s ∈ values, ∀ e, b64Decode s = .ok e → 8 * e.length < 2 ^ 63) :
    KVShard.fromBase64StringsU prof sha prg pseed segExp cap0 fp0 filterSeed keys values n m T b =
      KVShard.fromBase64Strings prof sha prg pseed segExp cap0 fp0 filterSeed keys values n m T b := by
  have hkv : ∀ k, ∀ v ∈ values, KeyValue.fromBase64StringsU prof sha k v T b = KeyValue.fromBase64Strings prof sha k v T b := by
    intro k v hv
    have : kvConstructRowU prof v b T = kvConstructRow prof v b T := by
      unfold kvConstructRowU kvConstructRow
      rw [getRowWidthU_eq prof hT]
      rcases Nat.eq_zero_or_pos b with rfl | hb0
      · rfl
      rw [getRowWidth_ok hb0, Res.bind_ok, Res.bind_ok]
      cases hd : b64Decode v with
      | ok e =>
        rw [Res.bind_ok, Res.bind_ok]
        exact rowU_eq prof (by rw [(C10_bits_value e).1]; exact hmem _ hv e hd) hT hb
      | err e => rfl
      | panic => rfl
      | diverge => rfl
    unfold KeyValue.fromBase64StringsU KeyValue.fromBase64Strings
    rw [this]
  have hcol : ∀ l : List (List U8 × List Char), (∀ kv ∈ l, kv.2 ∈ values) →
      collectEager (fun kv : List U8 × List Char => KeyValue.fromBase64StringsU prof sha kv.1 kv.2 T b) l =
      collectEager (fun kv : List U8 × List Char => KeyValue.fromBase64Strings prof sha kv.1 kv.2 T b) l := by
    intro l hl
    induction l with
    | nil => rfl
    | cons a l ih =>
      unfold collectEager
      rw [hkv a.1 a.2 (hl a (by simp)), ih fun kv h => hl kv (by simp [h])]
  unfold KVShard.fromBase64StringsU KVShard.fromBase64Strings KVDatabase.fromBase64StringsU KVDatabase.fromBase64Strings
  rw [hcol _ fun kv h => (List.of_mem_zip h).2]
  congr 1

/-- **C106 (decoding).** Turning a row into bytes in machine arithmetic has the outcome it has in the model with unbounded numbers,
for rows of fewer than `2^58` digits and `plaintext_bits` below `2^63`. -/
theorem C106_decode (prof : Profile) (v : List U32) (b T : Nat) (hv : v.length < 2 ^ 58) (hb : b < 2 ^ 63) :
    bytesFromU32SliceU prof v b T = bytesFromU32Slice prof v b T := by
  unfold bytesFromU32SliceU bytesFromU32Slice
  by_cases hb0 : b = 0
  · rw [if_pos hb0, if_pos hb0]
  rw [if_neg hb0, if_neg hb0]
  by_cases hs : b * v.length < 2 ^ 63
  · simp only [usizeRes]
    rw [if_pos (by omega), Res.bind_ok, if_neg (by omega)]
  · have hb33 : 32 < b := by
      by_contra h
      have : b * v.length ≤ 32 * v.length := Nat.mul_le_mul_right _ (by omega)
      omega
    have hv2 : 2 ≤ v.length := by
      by_contra h
      have : b * v.length ≤ b * 1 := Nat.mul_le_mul_left _ (by omega)
      omega
    have hp : mapRes (fun i => do
          let x ← rd v i
          if i ≠ v.length - 1 then u32ToBitsLe x b else u32ToBitsLe x (T % b)) (List.range v.length) = .panic := by
      refine mapRes_range_panic (k := 0) (by omega) (fun i hi => absurd hi (by omega)) ?_
      rw [rd_ok (by omega), Res.bind_ok, if_pos (by omega)]
      exact C11_too_many_bits _ _ hb33
    simp only
    rw [hp]
    unfold usizeRes
    split
    · rw [Res.bind_ok]
      split <;> rfl
    · cases prof
      · rfl
      · show (if 2 ^ 63 ≤ b * v.length % 2 ^ 64 then Res.panic else _) = Res.panic
        split <;> rfl

/-- The bound on `plaintext_bits` in `C106_decode` is needed: a one-digit row with `plaintext_bits = 2^63` panics on its capacity. -/
theorem C106_decode_refuted (prof : Profile) (x : U32) :
    bytesFromU32SliceU prof [x] (2 ^ 63) 8 = .panic ∧ ∃ bytes, bytesFromU32Slice prof [x] (2 ^ 63) 8 = .ok bytes := by
  constructor
  · unfold bytesFromU32SliceU usizeRes
    rw [if_neg (by decide), if_pos (by simp)]
    rfl
  · unfold bytesFromU32Slice
    rw [if_neg (by decide)]
    obtain ⟨bits, h, -⟩ := C11_u32_bits_u32 prof x 8 (by decide)
    obtain ⟨bytes, h2, -⟩ := C10_bits_bytes_bits prof bits
    refine ⟨bytes, ?_⟩
    have : (8 : Nat) % 2 ^ 63 = 8 := by decide
    simp only [this, List.length_singleton, List.range_one]
    rw [mapRes_cons, rd_ok (by simp), Res.bind_ok]
    simp only [List.getElem_cons_zero]
    rw [if_neg (by decide), h, Res.bind_ok, mapRes_nil, Res.bind_ok, Res.bind_ok]
    simpa using h2

/-! ### The hypotheses can be met -/

/-- `C106_index_build`: the strings of a shard are short enough. -/
example : ∀ s ∈ ["AQI=".toList, "AwQ=".toList], ∀ e, b64Decode s = .ok e → 8 * e.length < 2 ^ 63 := by
  intro s hs e he
  simp only [List.mem_cons, List.not_mem_nil, or_false] at hs
  rcases hs with rfl | rfl
  · rw [show b64Decode "AQI=".toList = .ok [1, 2] by decide] at he
    cases he
    decide
  · rw [show b64Decode "AwQ=".toList = .ok [3, 4] by decide] at he
    cases he
    decide

/-- `C106_decode`: a row of two digits. -/
example (prof : Profile) : bytesFromU32SliceU prof [5, 3] 10 16 = bytesFromU32Slice prof [5, 3] 10 16 :=
  C106_decode prof [5, 3] 10 16 (by decide) (by decide)

/-- Without the bound on the memory, machine arithmetic does make a difference to a single step: a digit whose end wraps around. -/
example : usizeRes .release (2 * 2 ^ 63) = .ok 0 ∧ usizeRes .debug (2 * 2 ^ 63) = .panic := by
  constructor <;> decide

end Chalamet
