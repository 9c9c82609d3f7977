import Mathlib.Analysis.SpecialFunctions.Trigonometric.Series
import Mathlib.Algebra.BigOperators.Ring.Finset
import Mathlib.Algebra.BigOperators.Field
import Mathlib.Algebra.Order.BigOperators.Group.Finset
import Mathlib.Data.Fintype.BigOperators
import Mathlib.Tactic.Positivity
import Mathlib.Tactic.Linarith
import Mathlib.Tactic.FieldSimp

/-! Exponential tail bound for sums of bounded symmetric three-valued samples (helper lemmas). -/

namespace Chalamet
open Finset

/-- The value classified by the two thresholds `I` and `2I`. -/
def clsOf (I v : Nat) : ℤ := if v ≤ I then 0 else if v ≤ 2 * I then 1 else -1

theorem sum_clsOf (I : Nat) (F : ℤ → ℝ) :
    ∑ v ∈ range (3 * I + 1), F (clsOf I v) = (I + 1) * F 0 + I * F 1 + I * F (-1) := by
  have h1 : ∑ v ∈ range (I + 1), F (clsOf I v) = (I + 1) * F 0 := by
    rw [sum_congr rfl (g := fun _ => F 0)]
    · simp
    · intro v hv
      rw [mem_range] at hv
      rw [clsOf, if_pos (by omega)]
  have h2 : ∑ k ∈ range I, F (clsOf I (I + 1 + k)) = I * F 1 := by
    rw [sum_congr rfl (g := fun _ => F 1)]
    · simp
    · intro v hv
      rw [mem_range] at hv
      rw [clsOf, if_neg (by omega), if_pos (by omega)]
  have h3 : ∑ k ∈ range I, F (clsOf I (I + 1 + I + k)) = I * F (-1) := by
    rw [sum_congr rfl (g := fun _ => F (-1))]
    · simp
    · intro v hv
      rw [mem_range] at hv
      rw [clsOf, if_neg (by omega), if_neg (by omega)]
  rw [show 3 * I + 1 = I + 1 + I + I by omega, sum_range_add, sum_range_add, h1, h2, h3]

open Nat in
theorem three_pow_fact (n : ℕ) : 2 * 3 ^ n * (n + 1)! ≤ (2 * (n + 1))! := by
  induction n with
  | zero => decide
  | succ n ih =>
    have e1 : (n + 1 + 1)! = (n + 2) * (n + 1)! := by rw [Nat.factorial_succ]
    have e2 : (2 * (n + 1 + 1))! = (2 * n + 4) * ((2 * n + 3) * (2 * (n + 1))!) := by
      rw [show 2 * (n + 1 + 1) = (2 * (n + 1) + 1) + 1 by ring, Nat.factorial_succ, Nat.factorial_succ]
      ring_nf
    rw [e1, e2, pow_succ]
    calc 2 * (3 ^ n * 3) * ((n + 2) * (n + 1)!) = (n + 2) * 3 * (2 * 3 ^ n * (n + 1)!) := by ring
      _ ≤ (n + 2) * 3 * (2 * (n + 1))! := Nat.mul_le_mul_left _ ih
      _ ≤ ((2 * n + 4) * (2 * n + 3)) * (2 * (n + 1))! := Nat.mul_le_mul_right _ (by nlinarith)
      _ = _ := by ring

open Nat in
theorem hasSum_exp_real (y : ℝ) : HasSum (fun n : ℕ => y ^ n / (n ! : ℝ)) (Real.exp y) := by
  rw [Real.exp_eq_exp_ℝ]
  exact NormedSpace.expSeries_div_hasSum_exp y

open Nat in
/-- A uniform sample of `{-1, 0, 1}` is sub-Gaussian with variance proxy `2/3`. -/
theorem one_add_two_cosh_le (x : ℝ) : 1 + 2 * Real.cosh x ≤ 3 * Real.exp (x ^ 2 / 3) := by
  have h1 : HasSum (fun n : ℕ => if n = 0 then (1 : ℝ) else 0) 1 := by
    simpa using hasSum_ite_eq (0 : ℕ) (1 : ℝ)
  have h2 := h1.add (x.hasSum_cosh.mul_left 2)
  have h3 : HasSum (fun n : ℕ => 3 * ((x ^ 2 / 3) ^ n / (n ! : ℝ))) (3 * Real.exp (x ^ 2 / 3)) :=
    (hasSum_exp_real (x ^ 2 / 3)).mul_left 3
  refine hasSum_le (fun n => ?_) h2 h3
  rcases n with _ | n
  · norm_num
  · rw [if_neg (by omega), zero_add]
    have hf : ((2 * 3 ^ n * (n + 1)! : ℕ) : ℝ) ≤ ((2 * (n + 1))! : ℕ) := Nat.cast_le.2 (three_pow_fact n)
    push_cast at hf
    have p1 : (0 : ℝ) < (n + 1)! := by positivity
    have p2 : (0 : ℝ) < (2 * (n + 1))! := by positivity
    have p3 : (0 : ℝ) ≤ x ^ (2 * (n + 1)) := by rw [pow_mul]; positivity
    have e : 3 * ((x ^ 2 / 3) ^ (n + 1) / ((n + 1)! : ℝ)) = x ^ (2 * (n + 1)) / (3 ^ n * (n + 1)!) := by
      rw [div_pow, pow_mul]; field_simp; ring
    rw [e, ← mul_div_assoc, div_le_div_iff₀ p2 (by positivity)]
    nlinarith [mul_le_mul_of_nonneg_left hf p3]
theorem mgf_le (I : Nat) (x : ℝ) :
    ∑ v : Fin (3 * I + 1), Real.exp (x * clsOf I v) ≤ (3 * I + 1) * Real.exp (x ^ 2 / 3) := by
  have h := sum_clsOf I (fun z => Real.exp (x * z))
  rw [← Fin.sum_univ_eq_sum_range (fun v => Real.exp (x * clsOf I v))] at h
  rw [h]
  have hc := one_add_two_cosh_le x
  have h1 : (1 : ℝ) ≤ Real.exp (x ^ 2 / 3) := Real.one_le_exp (by positivity)
  have hI : (0 : ℝ) ≤ I := Nat.cast_nonneg I
  have hcosh : Real.exp x + Real.exp (-x) = 2 * Real.cosh x := by rw [Real.cosh_eq]; ring
  simp only [Int.cast_zero, mul_zero, Real.exp_zero, Int.cast_one, mul_one, Int.cast_neg, mul_neg]
  have e1 : (I : ℝ) * Real.exp x + I * Real.exp (-x) = 2 * I * Real.cosh x := by
    rw [← mul_add, hcosh]; ring
  nlinarith [mul_le_mul_of_nonneg_left hc hI]

theorem mgf_sum_le {m : Nat} (I : Nat) (c : Fin m → ℝ) (l : ℝ) :
    ∑ t : Fin m → Fin (3 * I + 1), Real.exp (l * ∑ i, clsOf I (t i) * c i) ≤
      (3 * I + 1) ^ m * Real.exp (l ^ 2 * (∑ i, c i ^ 2) / 3) := by
  have h1 : ∀ t : Fin m → Fin (3 * I + 1), Real.exp (l * ∑ i, clsOf I (t i) * c i) =
      ∏ i, Real.exp (l * c i * clsOf I (t i)) := by
    intro t
    rw [← Real.exp_sum, mul_sum]
    congr 1
    apply sum_congr rfl
    intro i _
    ring
  rw [sum_congr rfl fun t _ => h1 t]
  have h2 := Finset.prod_univ_sum (fun _ : Fin m => (univ : Finset (Fin (3 * I + 1))))
    (fun i v => Real.exp (l * c i * clsOf I v))
  rw [Fintype.piFinset_univ] at h2
  rw [← h2]
  refine le_trans (prod_le_prod (fun i _ => sum_nonneg fun v _ => (Real.exp_pos _).le)
    (fun i _ => mgf_le I (l * c i))) (le_of_eq ?_)
  rw [prod_mul_distrib, prod_const, card_univ, Fintype.card_fin, ← Real.exp_sum]
  congr 2
  rw [mul_sum, sum_div]
  apply sum_congr rfl
  intro i _
  ring

/-- One-sided tail. -/
theorem tail_one {m : Nat} (I : Nat) (c : Fin m → ℝ) (a S : ℝ) (ha : 0 ≤ a) (hS : 0 < S)
    (hc : ∑ i, c i ^ 2 ≤ S) :
    ((univ.filter fun t : Fin m → Fin (3 * I + 1) => a ≤ ∑ i, clsOf I (t i) * c i).card : ℝ) ≤
      (3 * I + 1) ^ m * Real.exp (-(3 * a ^ 2 / (4 * S))) := by
  set l := 3 * a / (2 * S) with hl
  have hl0 : 0 ≤ l := by positivity
  have h1 := mgf_sum_le I c l
  have h1' : (3 * (I : ℝ) + 1) ^ m * Real.exp (l ^ 2 * (∑ i, c i ^ 2) / 3) ≤
      (3 * I + 1) ^ m * Real.exp (l ^ 2 * S / 3) := by
    refine mul_le_mul_of_nonneg_left (Real.exp_le_exp.2 ?_) (by positivity)
    have := mul_le_mul_of_nonneg_left hc (sq_nonneg l)
    linarith
  have h2 : ((univ.filter fun t : Fin m → Fin (3 * I + 1) => a ≤ ∑ i, clsOf I (t i) * c i).card : ℝ) *
      Real.exp (l * a) ≤ ∑ t : Fin m → Fin (3 * I + 1), Real.exp (l * ∑ i, clsOf I (t i) * c i) := by
    rw [← nsmul_eq_mul, ← sum_const]
    refine le_trans (sum_le_sum fun t ht => ?_)
      (sum_le_sum_of_subset_of_nonneg (filter_subset _ _) fun _ _ _ => (Real.exp_pos _).le)
    rw [mem_filter] at ht
    exact Real.exp_le_exp.2 (mul_le_mul_of_nonneg_left ht.2 hl0)
  have h3 : -(3 * a ^ 2 / (4 * S)) = l ^ 2 * S / 3 - l * a := by
    rw [hl]; field_simp; ring
  rw [h3, Real.exp_sub, ← mul_div_assoc, le_div_iff₀ (Real.exp_pos _)]
  exact le_trans h2 (le_trans h1 h1')

/-- Two-sided tail: at most a fraction `2 exp (-3 a^2 / (4 S))` of the sample vectors, `Σ c^2 ≤ S`. -/
theorem tail_two {m : Nat} (I : Nat) (c : Fin m → ℝ) (a S : ℝ) (ha : 0 ≤ a) (hc : ∑ i, c i ^ 2 ≤ S) :
    ((univ.filter fun t : Fin m → Fin (3 * I + 1) => a ≤ |∑ i, clsOf I (t i) * c i|).card : ℝ) ≤
      2 * Real.exp (-(3 * a ^ 2 / (4 * S))) * (3 * I + 1) ^ m := by
  rcases (le_trans (sum_nonneg fun i _ => sq_nonneg (c i)) hc : 0 ≤ S).eq_or_lt with hS | hS
  · rw [← hS]
    simp only [mul_zero, div_zero, neg_zero, Real.exp_zero, mul_one]
    have h : ((univ.filter fun t : Fin m → Fin (3 * I + 1) =>
        a ≤ |∑ i, clsOf I (t i) * c i|).card : ℝ) ≤ ((3 * I + 1) ^ m : ℕ) := by
      norm_cast
      refine le_trans (card_le_univ _) (le_of_eq ?_)
      simp
    push_cast at h
    have h0 : (0 : ℝ) ≤ (3 * I + 1) ^ m := by positivity
    linarith
  · have h1 := tail_one I c a S ha hS hc
    have h2 := tail_one I (fun i => - c i) a S ha hS (by simpa using hc)
    have h3 : (univ.filter fun t : Fin m → Fin (3 * I + 1) => a ≤ |∑ i, clsOf I (t i) * c i|) ⊆
        (univ.filter fun t : Fin m → Fin (3 * I + 1) => a ≤ ∑ i, clsOf I (t i) * c i) ∪
        (univ.filter fun t : Fin m → Fin (3 * I + 1) => a ≤ ∑ i, clsOf I (t i) * -c i) := by
      intro t ht
      rw [mem_filter] at ht
      rw [mem_union, mem_filter, mem_filter]
      rcases le_abs.1 ht.2 with h | h
      · exact Or.inl ⟨mem_univ _, h⟩
      · refine Or.inr ⟨mem_univ _, ?_⟩
        rw [← sum_neg_distrib] at h
        simpa using h
    have h4 : ((univ.filter fun t : Fin m → Fin (3 * I + 1) =>
        a ≤ |∑ i, clsOf I (t i) * c i|).card : ℝ) ≤ _ :=
      Nat.cast_le.2 (le_trans (card_le_card h3) (card_union_le _ _))
    rw [Nat.cast_add] at h4
    linarith

end Chalamet
