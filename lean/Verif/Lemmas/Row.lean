import Verif.Lemmas.Codec
import Verif.Model.Db

/-! Lemmas on row construction and element decoding (helper lemmas). -/

namespace Chalamet
open Spec

theorem mapRes_append {α β : Type} (f : α → Res β) (l₁ l₂ : List α) :
    mapRes f (l₁ ++ l₂) = (mapRes f l₁ >>= fun a => mapRes f l₂ >>= fun b => .ok (a ++ b)) := by
  induction l₁ with
  | nil => simp; cases mapRes f l₂ <;> rfl
  | cons a as ih =>
    rw [List.cons_append, mapRes_cons, mapRes_cons, ih]
    cases f a with
    | ok b =>
      simp only [Res.bind_ok]
      cases mapRes f as with
      | ok bs => simp only [Res.bind_ok]; cases mapRes f l₂ <;> rfl
      | err e => rfl
      | panic => rfl
      | diverge => rfl
    | err e => rfl
    | panic => rfl
    | diverge => rfl

theorem sliceRes_ok {α : Type} {l : List α} {lo hi : Nat} (h₁ : lo ≤ hi) (h₂ : hi ≤ l.length) :
    sliceRes l lo hi = .ok ((l.drop lo).take (hi - lo)) := by
  simp [sliceRes, h₁, h₂]

/-- The chunk of bits that becomes digit `i`. -/
theorem rowDigit_eq (prof : Profile) (bits : List Bool) (b i : Nat) (h : i * b ≤ bits.length) :
    rowDigit prof bits b i = bitsToU32Le prof ((bits.drop (i * b)).take b) := by
  simp only [rowDigit]
  have e : (i + 1) * b = i * b + b := by ring
  split
  · rw [sliceRes_ok (by omega) (by omega)]
    simp only [Res.bind_ok, e, Nat.add_sub_cancel_left]
  · rw [sliceRes_ok h le_rfl]
    simp only [Res.bind_ok]
    rw [List.take_of_length_le (by simp), List.take_of_length_le (by simp; omega)]

theorem rowDigit_panic (prof : Profile) (bits : List Bool) (b i : Nat) (h : bits.length < i * b) :
    rowDigit prof bits b i = .panic := by
  unfold rowDigit
  have e : (i + 1) * b = i * b + b := by ring
  rw [if_neg (by omega), sliceRes, if_neg (by omega)]
  rfl

theorem rowDigit_ok (prof : Profile) (bits : List Bool) (b i : Nat) (h : i * b ≤ bits.length)
    (hc : b ≤ 32 ∨ bits.length ≤ i * b + 32) :
    rowDigit prof bits b i = .ok (BitVec.ofNat 32 (digit b (bitsNat bits) i)) := by
  rw [rowDigit_eq _ _ _ _ h, bitsToU32Le_ok (by simp; omega), bitsNat_take, bitsNat_drop, digit,
    Nat.mul_comm b i]

theorem rowDigit_err (prof : Profile) (bits : List Bool) (b i : Nat)
    (hb : 32 < b) (hc : i * b + 32 < bits.length) :
    rowDigit prof bits b i = .err .inputSize := by
  rw [rowDigit_eq _ _ _ _ (by omega)]
  exact bitsToU32Le_err (by simp; omega)

theorem digit_lt (b n i : Nat) : digit b n i < 2 ^ b := Nat.mod_lt _ (Nat.two_pow_pos b)

/-- Bits of an element as a row. -/
theorem rowOfBits_ok (prof : Profile) (bits : List Bool) (b w : Nat) (hb : b ≤ 32)
    (h : (w - 1) * b ≤ bits.length) :
    mapRes (rowDigit prof bits b) (List.range w) =
      .ok ((List.range w).map fun i => BitVec.ofNat 32 (digit b (bitsNat bits) i)) := by
  apply mapRes_ok_of_forall
  intro i hi
  rw [List.mem_range] at hi
  apply rowDigit_ok _ _ _ _ _ (Or.inl hb)
  calc i * b ≤ (w - 1) * b := Nat.mul_le_mul_right _ (by omega)
    _ ≤ _ := h

theorem mapRes_panic_of {α β : Type} {f : α → Res β} {l₁ l₂ : List α} {a : α} {bs : List β}
    (h₁ : mapRes f l₁ = .ok bs) (h₂ : f a = .panic) : mapRes f (l₁ ++ a :: l₂) = .panic := by
  rw [mapRes_append, h₁, Res.bind_ok, mapRes_cons, h₂]
  rfl

theorem rowOfBits_panic (prof : Profile) (bits : List Bool) (b w : Nat) (hb : b ≤ 32)
    (h : bits.length < (w - 1) * b) :
    mapRes (rowDigit prof bits b) (List.range w) = .panic := by
  have hbpos : 0 < b := by
    rcases Nat.eq_zero_or_pos b with rfl | h' <;> [simp at h; exact h']
  -- first index whose chunk starts past the end
  set k := bits.length / b + 1 with hk
  have hkb : bits.length < k * b := by
    rw [hk, Nat.mul_comm]; exact Nat.lt_mul_div_succ _ hbpos
  have hkw : k < w := by
    have h1 : bits.length / b < w - 1 := (Nat.div_lt_iff_lt_mul hbpos).2 h
    generalize bits.length / b = q at *
    omega
  have hpre : (k - 1) * b ≤ bits.length := by
    rw [hk]; simpa using Nat.div_mul_le_self bits.length b
  have hrange : List.range w = List.range k ++ k :: (List.range (w - k - 1)).map (k + 1 + ·) := by
    have : w = k + (1 + (w - k - 1)) := by omega
    clear_value k
    conv_lhs => rw [this, List.range_add, List.range_add]
    simp [List.range_one, Nat.add_assoc]
  rw [hrange]
  exact mapRes_panic_of (rowOfBits_ok prof bits b k hb hpre) (rowDigit_panic _ _ _ _ hkb)

/-! ### decoding -/

/-- Value of a digit list in base `2^b`. -/
def horner (b : Nat) : List Nat → Nat
  | [] => 0
  | d :: ds => d + 2 ^ b * horner b ds

theorem mod_pow_succ_digit (b N w : Nat) :
    N % 2 ^ (b * (w + 1)) = N % 2 ^ (b * w) + 2 ^ (b * w) * digit b N w := by
  have : (2 : Nat) ^ (b * (w + 1)) = 2 ^ (b * w) * 2 ^ b := by rw [← Nat.pow_add]; ring_nf
  rw [this, Nat.mod_mul]; rfl

theorem flatten_val {b : Nat} (chunks : List (List Bool)) (h : ∀ c ∈ chunks, c.length = b) :
    bitsNat chunks.flatten = horner b (chunks.map bitsNat) ∧
      chunks.flatten.length = b * chunks.length := by
  induction chunks with
  | nil => simp [bitsNat, horner]
  | cons c cs ih =>
    obtain ⟨h1, h2⟩ := ih (fun c hc => h c (by simp [hc]))
    have hc := h c (by simp)
    simp only [List.flatten_cons, bitsNat_append, List.map_cons, horner, h1, hc,
      List.length_append, h2, List.length_cons, true_and]
    ring

theorem horner_append (b : Nat) (l₁ l₂ : List Nat) :
    horner b (l₁ ++ l₂) = horner b l₁ + 2 ^ (b * l₁.length) * horner b l₂ := by
  induction l₁ with
  | nil => simp [horner]
  | cons d ds ih =>
    simp only [List.cons_append, horner, ih, List.length_cons, Nat.mul_add, Nat.pow_add]
    ring

theorem horner_digits (b N w : Nat) :
    horner b ((List.range w).map (digit b N)) = N % 2 ^ (b * w) := by
  induction w with
  | zero => simp [horner, Nat.mod_one]
  | succ w ih =>
    rw [List.range_succ, List.map_append, horner_append, ih, mod_pow_succ_digit]
    simp [horner]

/-- `bytes_from_u32_slice` on a non-empty slice, as a value. -/
theorem bytesFromU32Slice_val {prof : Profile} {v : List U32} {x : U32} {b T : Nat}
    (hb : 0 < b) (hb32 : b ≤ 32) :
    ∃ bytes, bytesFromU32Slice prof (v ++ [x]) b T = .ok bytes ∧
      bytes.length = (b * v.length + T % b + 7) / 8 ∧
      leNat bytes = horner b (v.map fun y => y.toNat % 2 ^ b) +
        2 ^ (b * v.length) * (x.toNat % 2 ^ (T % b)) := by
  have hr : T % b ≤ 32 := by have := Nat.mod_lt T hb; omega
  obtain ⟨lastBits, hlast, hll, hlv⟩ := u32ToBitsLe_ok (x := x) hr
  -- the chunks of the leading entries
  have hchunks : ∀ u : List U32, ∃ chunks : List (List Bool),
      mapRes (fun y => u32ToBitsLe y b) u = .ok chunks ∧ (∀ c ∈ chunks, c.length = b) ∧
      chunks.map bitsNat = u.map (fun y => y.toNat % 2 ^ b) := by
    intro u
    induction u with
    | nil => exact ⟨[], by simp⟩
    | cons y ys ih =>
      obtain ⟨cs, h1, h2, h3⟩ := ih
      obtain ⟨c, hc1, hc2, hc3⟩ := u32ToBitsLe_ok (x := y) hb32
      refine ⟨c :: cs, by rw [mapRes_cons, hc1, h1]; rfl, ?_, by simp [hc3, h3]⟩
      intro c' hc'
      rcases List.mem_cons.1 hc' with rfl | hc'
      · exact hc2
      · exact h2 _ hc'
  obtain ⟨chunks, hch, hchl, hchv⟩ := hchunks v
  have hlen : chunks.length = v.length := mapRes_length hch
  have hmap : mapRes (fun i => do
        let x' ← rd (v ++ [x]) i
        if i ≠ (v ++ [x]).length - 1 then u32ToBitsLe x' b else u32ToBitsLe x' (T % b))
      (List.range (v ++ [x]).length) = .ok (chunks ++ [lastBits]) := by
    have hl : (v ++ [x]).length = v.length + 1 := by simp
    rw [hl, List.range_succ, mapRes_append]
    have h1 : mapRes (fun i => do
        let x' ← rd (v ++ [x]) i
        if i ≠ v.length + 1 - 1 then u32ToBitsLe x' b else u32ToBitsLe x' (T % b))
        (List.range v.length) = .ok chunks := by
      rw [mapRes_eq_ok] at hch ⊢
      rw [← hch]
      apply List.ext_getElem (by simp)
      intro i h1 h2
      have hi : i < v.length := by simpa using h2
      simp only [List.getElem_map, List.getElem_range]
      rw [rd_of_some (a := v[i]) (by rw [List.getElem?_append_left hi]; exact List.getElem?_eq_getElem hi)]
      simp only [Res.bind_ok]
      rw [if_pos (by omega)]
    rw [h1, Res.bind_ok, mapRes_cons, rd_of_some (a := x) (by simp)]
    simp [hlast]
  obtain ⟨bytes, hbytes, hbl, hbv⟩ := bitsToBytesLe_spec prof (chunks ++ [lastBits]).flatten
  obtain ⟨hf1, hf2⟩ := flatten_val chunks hchl
  refine ⟨bytes, ?_, ?_, ?_⟩
  · unfold bytesFromU32Slice
    rw [if_neg (by omega)]
    simp only [hmap, Res.bind_ok, hbytes]
  · rw [hbl]
    simp [hf2, hll, hlen, -List.length_flatten]
  · rw [hbv, List.flatten_append, bitsNat_append, hf1, hf2, hchv, hlen]
    simp [hlv]

/-- Row width as a ceiling. -/
theorem getRowWidth_ok {T b : Nat} (hb : 0 < b) : getRowWidth T b = .ok ((T + b - 1) / b) := by
  unfold getRowWidth
  rw [if_neg (by omega)]
  congr 1
  have hd := Nat.div_add_mod T b
  have hm := Nat.mod_lt T hb
  set q := T / b
  set r := T % b
  rcases Nat.eq_zero_or_pos r with hr | hr
  · simp only [hr, ne_eq, not_true_eq_false, if_false, Nat.add_zero]
    symm
    apply Nat.div_eq_of_lt_le
    · rw [Nat.mul_comm]; omega
    · rw [Nat.add_mul, Nat.mul_comm]; omega
  · rw [if_pos (by omega)]
    symm
    apply Nat.div_eq_of_lt_le
    · rw [Nat.add_mul, Nat.mul_comm]; omega
    · rw [Nat.add_mul, Nat.add_mul, Nat.mul_comm]; omega

/-- Decoding the digits of `N` when `b ∤ T`. -/
theorem decode_digits {prof : Profile} {N T b : Nat} (hb : 0 < b) (hb32 : b ≤ 32)
    (hdvd : ¬ b ∣ T) :
    ∃ bytes, bytesFromU32Slice prof
        ((List.range ((T + b - 1) / b)).map fun i => BitVec.ofNat 32 (digit b N i)) b T = .ok bytes ∧
      bytes.length = (T + 7) / 8 ∧ leNat bytes = N % 2 ^ T := by
  have hr : T % b ≠ 0 := fun h => hdvd (Nat.dvd_of_mod_eq_zero h)
  have hd := Nat.div_add_mod T b
  have hm := Nat.mod_lt T hb
  have hw : (T + b - 1) / b = T / b + 1 := by
    apply Nat.div_eq_of_lt_le
    · rw [Nat.add_mul, Nat.mul_comm]; omega
    · rw [Nat.add_mul, Nat.add_mul, Nat.mul_comm]; omega
  have hdig : ∀ i, (BitVec.ofNat 32 (digit b N i)).toNat = digit b N i := by
    intro i
    rw [BitVec.toNat_ofNat]
    apply Nat.mod_eq_of_lt
    calc digit b N i < 2 ^ b := digit_lt _ _ _
      _ ≤ 2 ^ 32 := Nat.pow_le_pow_right (by omega) hb32
  rw [hw, List.range_succ, List.map_append, List.map_cons, List.map_nil]
  obtain ⟨bytes, h1, h2, h3⟩ := bytesFromU32Slice_val (prof := prof)
    (v := (List.range (T / b)).map fun i => BitVec.ofNat 32 (digit b N i))
    (x := BitVec.ofNat 32 (digit b N (T / b))) (T := T) hb hb32
  refine ⟨bytes, h1, ?_, ?_⟩
  · rw [h2]; simp [hd]
  · have hmapeq : (((List.range (T / b)).map fun i => BitVec.ofNat 32 (digit b N i)).map
        fun y => y.toNat % 2 ^ b) = (List.range (T / b)).map (digit b N) := by
      rw [List.map_map]
      apply List.map_congr_left
      intro i _
      simp only [Function.comp_apply, hdig]
      exact Nat.mod_eq_of_lt (digit_lt _ _ _)
    rw [h3, hmapeq, horner_digits, hdig]
    simp only [List.length_map, List.length_range]
    have hsplit : (2 : Nat) ^ T = 2 ^ (b * (T / b)) * 2 ^ (T % b) := by
      rw [← Nat.pow_add, hd]
    rw [hsplit, Nat.mod_mul, digit, Nat.mod_mod_of_dvd]
    exact Nat.pow_dvd_pow 2 (by omega)

/-- Decoding the digits of `N` when `b ∣ T`: the last digit is dropped. -/
theorem decode_digits_dvd {prof : Profile} {N T b : Nat} (hb : 0 < b) (hb32 : b ≤ 32)
    (hT : 0 < T) (hdvd : b ∣ T) :
    ∃ bytes, bytesFromU32Slice prof
        ((List.range ((T + b - 1) / b)).map fun i => BitVec.ofNat 32 (digit b N i)) b T = .ok bytes ∧
      bytes.length = (T - b + 7) / 8 ∧ leNat bytes = N % 2 ^ (T - b) := by
  obtain ⟨k, rfl⟩ := hdvd
  have hk : 0 < k := by
    rcases Nat.eq_zero_or_pos k with rfl | h <;> [simp at hT; exact h]
  obtain ⟨j, rfl⟩ : ∃ j, k = j + 1 := ⟨k - 1, by omega⟩
  have hw : (b * (j + 1) + b - 1) / b = j + 1 := by
    apply Nat.div_eq_of_lt_le
    · rw [Nat.mul_comm]; omega
    · rw [Nat.add_mul (j + 1) 1 b, Nat.mul_comm (j + 1)]; omega
  have hdig : ∀ i, (BitVec.ofNat 32 (digit b N i)).toNat = digit b N i := by
    intro i
    rw [BitVec.toNat_ofNat]
    apply Nat.mod_eq_of_lt
    calc digit b N i < 2 ^ b := digit_lt _ _ _
      _ ≤ 2 ^ 32 := Nat.pow_le_pow_right (by omega) hb32
  rw [hw, List.range_succ, List.map_append, List.map_cons, List.map_nil]
  obtain ⟨bytes, h1, h2, h3⟩ := bytesFromU32Slice_val (prof := prof)
    (v := (List.range j).map fun i => BitVec.ofNat 32 (digit b N i))
    (x := BitVec.ofNat 32 (digit b N j)) (T := b * (j + 1)) hb hb32
  have hsub : b * (j + 1) - b = b * j := by rw [Nat.mul_add]; omega
  refine ⟨bytes, h1, ?_, ?_⟩
  · rw [h2, hsub]; simp
  · have hmapeq : (((List.range j).map fun i => BitVec.ofNat 32 (digit b N i)).map
        fun y => y.toNat % 2 ^ b) = (List.range j).map (digit b N) := by
      rw [List.map_map]
      apply List.map_congr_left
      intro i _
      simp only [Function.comp_apply, hdig]
      exact Nat.mod_eq_of_lt (digit_lt _ _ _)
    rw [h3, hmapeq, horner_digits, hsub]
    simp [Nat.mod_one]

end Chalamet
