import Verif.Model.Float
import Mathlib.Algebra.Order.Floor.Ring
import Mathlib.Tactic.Linarith
import Mathlib.Tactic.Positivity
import Mathlib.Tactic.FieldSimp
import Mathlib.Tactic.Ring
import Mathlib.Tactic.NormNum

/-! # Facts about rounding to 53 bits -/

namespace Chalamet

theorem roundEven_cases (q : ℚ) :
    (roundEven q = ⌊q⌋ ∧ Int.fract q ≤ 1 / 2) ∨ (roundEven q = ⌊q⌋ + 1 ∧ 1 / 2 ≤ Int.fract q) := by
  unfold roundEven
  split_ifs with h1 h2 h3
  · exact .inl ⟨rfl, le_of_lt h1⟩
  · exact .inr ⟨rfl, le_of_lt h2⟩
  · exact .inl ⟨rfl, not_lt.mp h2⟩
  · exact .inr ⟨rfl, not_lt.mp h1⟩

theorem roundEven_bounds (q : ℚ) : q - 1 / 2 ≤ roundEven q ∧ (roundEven q : ℚ) ≤ q + 1 / 2 := by
  have hf := Int.floor_add_fract q
  rcases roundEven_cases q with ⟨h, h'⟩ | ⟨h, h'⟩ <;> rw [h] <;> push_cast
  · have := Int.fract_nonneg q
    constructor <;> linarith
  · have := Int.fract_lt_one q
    constructor <;> linarith

theorem le_roundEven {q : ℚ} {N : ℤ} (h : (N : ℚ) ≤ q) : N ≤ roundEven q := by
  have := Int.le_floor.mpr h
  rcases roundEven_cases q with ⟨h, _⟩ | ⟨h, _⟩ <;> omega

theorem roundEven_le {q : ℚ} {N : ℤ} (h : q ≤ N) : roundEven q ≤ N := by
  rcases lt_or_eq_of_le h with h1 | h1
  · have : ⌊q⌋ < N := Int.floor_lt.mpr h1
    rcases roundEven_cases q with ⟨h, _⟩ | ⟨h, _⟩ <;> omega
  · subst h1
    simp [roundEven]

theorem roundEven_eq {q : ℚ} {N : ℤ} (h1 : (N : ℚ) - 1 / 2 < q) (h2 : q < N + 1 / 2) : roundEven q = N := by
  have hb := roundEven_bounds q
  have e1 : (roundEven q : ℚ) < N + 1 := by linarith
  have e2 : (N : ℚ) - 1 < roundEven q := by linarith
  have e1' : roundEven q < N + 1 := by exact_mod_cast e1
  have e2' : N - 1 < roundEven q := by exact_mod_cast e2
  omega

theorem ulp_pos (x : ℚ) : 0 < ulp x := zpow_pos (by norm_num) _

/-- An ulp is at most 2^-52 of the number. -/
theorem ulp_le {x : ℚ} (hx : 0 < x) : ulp x ≤ x / 2 ^ 52 := by
  unfold ulp
  have h := Int.zpow_log_le_self (b := 2) (by norm_num) hx
  rw [zpow_sub₀ (by norm_num)]
  push_cast at h
  have : ((2 : ℚ) ^ (52 : ℤ)) = 2 ^ 52 := by norm_cast
  rw [this]
  exact div_le_div_of_nonneg_right h (by positivity)

/-- and more than 2^-53 of it. -/
theorem lt_ulp (x : ℚ) : x / 2 ^ 53 < ulp x := by
  unfold ulp
  have h := Int.lt_zpow_succ_log_self (b := 2) (by norm_num) x
  push_cast at h
  have e : (2 : ℚ) ^ (Int.log 2 x - 52) = 2 ^ (Int.log 2 x + 1) / 2 ^ 53 := by
    rw [show Int.log 2 x - 52 = (Int.log 2 x + 1) - (53 : ℤ) by ring, zpow_sub₀ (by norm_num)]
    norm_cast
  rw [e]
  exact div_lt_div_of_pos_right h (by positivity)

/-- Relative error of one rounding. -/
theorem rne_err {x : ℚ} (hx : 0 ≤ x) : x - x / 2 ^ 53 ≤ rne x ∧ rne x ≤ x + x / 2 ^ 53 := by
  rcases eq_or_lt_of_le hx with h | h
  · subst h; simp [rne, roundEven]
  have hu := ulp_pos x
  have hl := ulp_le h
  have hb := roundEven_bounds (x / ulp x)
  unfold rne
  have e : x / ulp x * ulp x = x := by field_simp
  have a := mul_le_mul_of_nonneg_right hb.1 hu.le
  have b := mul_le_mul_of_nonneg_right hb.2 hu.le
  constructor
  · nlinarith
  · nlinarith

theorem rne_nonneg {x : ℚ} (hx : 0 ≤ x) : 0 ≤ rne x := by
  have := (rne_err hx).1
  have : x / 2 ^ 53 ≤ x := by
    rw [div_le_iff₀ (by positivity)]; nlinarith
  linarith

/-- Multiples of `2^-j` below `2^(53-j)` are multiples of the ulp. -/
theorem exists_mul_ulp {x : ℚ} (hx : 0 < x) {j : Nat} (hb : x * 2 ^ j < 2 ^ 53) (k : ℤ) :
    ∃ N : ℤ, (k : ℚ) / 2 ^ j = N * ulp x := by
  have hl : Int.log 2 x < 53 - (j : ℤ) := by
    rw [← Int.lt_zpow_iff_log_lt (by norm_num) hx, zpow_sub₀ (by norm_num)]
    push_cast
    rw [lt_div_iff₀ (zpow_pos (by norm_num) _)]
    exact_mod_cast hb
  obtain ⟨d, hd⟩ : ∃ d : Nat, 52 - Int.log 2 x - j = d := ⟨(52 - Int.log 2 x - j).toNat, by omega⟩
  refine ⟨k * 2 ^ d, ?_⟩
  unfold ulp
  rw [show Int.log 2 x - 52 = -(j : ℤ) - d by omega, zpow_sub₀ (by norm_num), zpow_neg]
  push_cast
  simp only [zpow_natCast]
  field_simp

theorem le_rne {x : ℚ} (hx : 0 < x) {j : Nat} (hb : x * 2 ^ j < 2 ^ 53) {k : ℤ} (h : (k : ℚ) / 2 ^ j ≤ x) :
    (k : ℚ) / 2 ^ j ≤ rne x := by
  obtain ⟨N, hN⟩ := exists_mul_ulp hx hb k
  have hu := ulp_pos x
  have : (N : ℚ) ≤ x / ulp x := by rw [le_div_iff₀ hu, ← hN]; exact h
  have h2 : (N : ℚ) ≤ roundEven (x / ulp x) := by exact_mod_cast le_roundEven this
  rw [hN]; unfold rne
  exact mul_le_mul_of_nonneg_right h2 hu.le

theorem rne_le {x : ℚ} (hx : 0 < x) {j : Nat} (hb : x * 2 ^ j < 2 ^ 53) {k : ℤ} (h : x ≤ (k : ℚ) / 2 ^ j) :
    rne x ≤ (k : ℚ) / 2 ^ j := by
  obtain ⟨N, hN⟩ := exists_mul_ulp hx hb k
  have hu := ulp_pos x
  have : x / ulp x ≤ (N : ℚ) := by rw [div_le_iff₀ hu, ← hN]; exact h
  have h2 : (roundEven (x / ulp x) : ℚ) ≤ N := by exact_mod_cast roundEven_le this
  rw [hN]; unfold rne
  exact mul_le_mul_of_nonneg_right h2 hu.le

/-- Numbers with few bits are not changed. -/
theorem rne_exact {j : Nat} {k : ℤ} (hk : 0 ≤ k) (hb : k < 2 ^ 53) : rne ((k : ℚ) / 2 ^ j) = (k : ℚ) / 2 ^ j := by
  rcases eq_or_lt_of_le hk with h | h
  · subst h; simp [rne, roundEven]
  have hx : (0 : ℚ) < (k : ℚ) / 2 ^ j := by
    have : (0 : ℚ) < k := by exact_mod_cast h
    positivity
  have hb' : (k : ℚ) / 2 ^ j * 2 ^ j < 2 ^ 53 := by
    rw [div_mul_cancel₀ _ (by positivity)]; exact_mod_cast hb
  exact le_antisymm (rne_le hx hb' le_rfl) (le_rne hx hb' le_rfl)

theorem rne_natCast {n : Nat} (h : n < 2 ^ 53) : rne (n : ℚ) = n := by
  have := rne_exact (j := 0) (k := n) (by omega) (by exact_mod_cast h)
  simpa using this

theorem f64OfNat_eq {n : Nat} (h : n < 2 ^ 53) : f64OfNat n = n := rne_natCast h

/-- A number closer than a 2^-54 part to an integer is rounded to it. -/
theorem rne_near {y : ℚ} {k : Nat} (hk0 : 0 < k) (hk : k < 2 ^ 50) (h1 : (k : ℚ) - k / 2 ^ 55 ≤ y) (h2 : y ≤ k) :
    rne y = k := by
  have hk0' : (0 : ℚ) < k := by exact_mod_cast hk0
  have hk' : (k : ℚ) < 2 ^ 50 := by exact_mod_cast hk
  have hy : 0 < y := by
    have : (k : ℚ) / 2 ^ 55 < k := by rw [div_lt_iff₀ (by positivity)]; nlinarith
    linarith
  obtain ⟨N, hN⟩ := exists_mul_ulp hy (j := 0) (by norm_num; linarith) k
  simp only [pow_zero, div_one, Int.cast_natCast] at hN
  have hu := ulp_pos y
  have hl := lt_ulp y
  have hyk : (k : ℚ) / 2 ≤ y := by
    have : (k : ℚ) / 2 ^ 55 ≤ k / 2 := by
      apply div_le_div_of_nonneg_left hk0'.le <;> norm_num
    linarith
  have : roundEven (y / ulp y) = N := by
    apply roundEven_eq
    · rw [lt_div_iff₀ hu, sub_mul, ← hN]
      have : (k : ℚ) / 2 ^ 55 < 1 / 2 * ulp y := by
        have e : (k : ℚ) / 2 ^ 55 ≤ 1 / 2 * (y / 2 ^ 53) := by
          have : (k : ℚ) / 2 ^ 55 = 1 / 2 * (k / 2 / 2 ^ 53) := by ring
          rw [this]
          apply mul_le_mul_of_nonneg_left _ (by norm_num)
          exact div_le_div_of_nonneg_right hyk (by positivity)
        linarith
      linarith
    · rw [div_lt_iff₀ hu, add_mul, ← hN]
      linarith
  unfold rne
  rw [this, ← hN]

/-- Truncation of a rounded product that is a 2^-55 part below `A / B`. -/
theorem floor_rne_div {A B : Nat} {y : ℚ} (hB : 0 < B) (hB' : B ≤ 1000) (hA : A < 2 ^ 41 * B)
    (h1 : (A : ℚ) / B - (A : ℚ) / B / 2 ^ 55 ≤ y) (h2 : y ≤ (A : ℚ) / B) : ⌊rne y⌋₊ = A / B := by
  have hBq : (0 : ℚ) < B := by exact_mod_cast hB
  set k := A / B with hk
  have hkA : A = B * k + A % B := (Nat.div_add_mod A B).symm
  have hmod : A % B < B := Nat.mod_lt _ hB
  have hkl : k < 2 ^ 41 := by rw [hk, Nat.div_lt_iff_lt_mul hB]; omega
  have hkq : (k : ℚ) + 1 ≤ 2 ^ 41 := by exact_mod_cast hkl
  have ht : (A : ℚ) / B = k + ((A % B : Nat) : ℚ) / B := by
    rw [div_eq_iff hBq.ne', add_mul, div_mul_cancel₀ _ hBq.ne']
    have : (A : ℚ) = ((B * k + A % B : Nat) : ℚ) := by exact_mod_cast hkA
    rw [this]; push_cast; ring
  have hB1 : (1 : ℚ) / 1000 ≤ 1 / B := by
    exact div_le_div_of_nonneg_left (by norm_num) hBq (by exact_mod_cast hB')
  have hfr : ((A % B : Nat) : ℚ) / B ≤ 1 - 1 / B := by
    rw [div_le_iff₀ hBq, sub_mul, div_mul_cancel₀ _ hBq.ne']
    have : ((A % B : Nat) : ℚ) + 1 ≤ B := by exact_mod_cast hmod
    linarith
  have hfr0 : (0 : ℚ) ≤ ((A % B : Nat) : ℚ) / B := by positivity
  have ht1 : (A : ℚ) / B ≤ k + 1 - 1 / 1000 := by rw [ht]; linarith
  have ht0 : (0 : ℚ) ≤ (A : ℚ) / B := by positivity
  have hy0 : 0 ≤ y := by
    have : (A : ℚ) / B / 2 ^ 55 ≤ (A : ℚ) / B := by
      rw [div_le_iff₀ (by positivity)]; nlinarith
    linarith
  rw [Nat.floor_eq_iff (rne_nonneg hy0)]
  constructor
  · rcases Nat.eq_zero_or_pos (A % B) with h0 | h0
    · rw [h0] at ht
      simp only [Nat.cast_zero, zero_div, add_zero] at ht
      rcases Nat.eq_zero_or_pos k with k0 | k0
      · rw [k0]; exact_mod_cast rne_nonneg hy0
      · rw [rne_near k0 (by omega) (by rw [← ht]; exact h1) (by rw [← ht]; exact h2)]
    · have h3 : (k : ℚ) + 1 / 1000 ≤ (A : ℚ) / B := by
        rw [ht]
        have : (1 : ℚ) / B ≤ ((A % B : Nat) : ℚ) / B :=
          div_le_div_of_nonneg_right (by exact_mod_cast h0) hBq.le
        linarith
      have h4 : (A : ℚ) / B / 2 ^ 55 ≤ 1 / 1000 := by
        rw [div_le_iff₀ (by positivity)]
        norm_num at *
        linarith
      have hyk : (k : ℚ) ≤ y := by linarith
      rcases eq_or_lt_of_le hy0 with h | h
      · rw [← h] at hyk
        exact hyk.trans (rne_nonneg hy0)
      · have := le_rne h (j := 0) (k := k) (by norm_num at *; linarith) (by simpa using hyk)
        simpa using this
  · have h3 := (rne_err hy0).2
    have h4 : y / 2 ^ 53 < 1 / 1000 := by
      rw [div_lt_iff₀ (by positivity)]
      norm_num at *
      linarith
    linarith

end Chalamet
