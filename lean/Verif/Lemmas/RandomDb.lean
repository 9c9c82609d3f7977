import Verif.Lemmas.Moments

/-! Tail bound for the noise on random columns (helper lemmas). -/

namespace Chalamet
open Finset

/-- The sum of `g` over the middle digits of the numbers below `A * (B * C)`. -/
theorem sum_mid (A B C : Nat) (hC : 0 < C) (g : Nat → ℝ) :
    ∑ x : Fin (A * (B * C)), g (x / C % B) = A * C * ∑ d : Fin B, g d := by
  rcases Nat.eq_zero_or_pos B with rfl | hB
  · have : IsEmpty (Fin (A * (0 * C))) := by
      rw [Nat.zero_mul, Nat.mul_zero]; infer_instance
    simp
  rw [← Fintype.sum_equiv finProdFinEquiv (fun y : Fin A × Fin (B * C) => g (y.2 / C % B)) _ (by
    rintro ⟨a, y⟩
    simp only [finProdFinEquiv_apply_val]
    rw [show B * C * (a : ℕ) = C * (B * a) by ring, Nat.add_mul_div_left _ _ hC, Nat.add_mul_mod_self_left])]
  rw [Fintype.sum_prod_type]
  simp only [sum_const, card_univ, Fintype.card_fin, nsmul_eq_mul]
  rw [mul_assoc]
  congr 1
  rw [← Fintype.sum_equiv finProdFinEquiv (fun y : Fin B × Fin C => g y.1) _ (by
    rintro ⟨a, y⟩
    simp only [finProdFinEquiv_apply_val]
    rw [Nat.add_mul_div_left _ _ hC, Nat.div_eq_of_lt y.2, Nat.zero_add, Nat.mod_eq_of_lt a.2])]
  rw [Fintype.sum_prod_type]
  simp only [sum_const, card_univ, Fintype.card_fin, nsmul_eq_mul]
  rw [mul_sum]

theorem sum_sq_fin (B : Nat) : ∑ d : Fin B, ((d : ℕ) : ℝ) ^ 2 = B * ((B - 1) * (2 * B - 1)) / 6 := by
  rw [Fin.sum_univ_eq_sum_range (fun d => ((d : ℕ) : ℝ) ^ 2)]
  induction B with
  | zero => simp
  | succ B ih => rw [sum_range_succ, ih]; push_cast; ring

theorem exp_le_quad {y : ℝ} (h0 : 0 ≤ y) (h1 : y ≤ 1) : Real.exp y ≤ 1 + y * (1 + y) := by
  have := Real.exp_bound' h0 h1 (n := 2) (by norm_num)
  simp [sum_range_succ] at this
  nlinarith

/-- Mean of `exp (y d^2)` over the digits below `B ≤ B'`. -/
theorem mean_exp_le (B B' : Nat) (hB : 1 ≤ B) (hBB : B ≤ B') (y : ℝ) (hy : 0 ≤ y) (hY : y * (B' - 1) ^ 2 ≤ 1) :
    ∑ d : Fin B, Real.exp (y * ((d : ℕ) : ℝ) ^ 2) ≤
      B * Real.exp (y * ((B' - 1) * (2 * B' - 1) / 6) * (1 + y * (B' - 1) ^ 2)) := by
  have hBr : (1 : ℝ) ≤ B := by exact_mod_cast hB
  have hBB' : (B : ℝ) ≤ B' := by exact_mod_cast hBB
  set Y := y * ((B' : ℝ) - 1) ^ 2 with hYd
  have hY0 : 0 ≤ Y := by positivity
  have h1 : ∀ d : Fin B, Real.exp (y * ((d : ℕ) : ℝ) ^ 2) ≤ 1 + y * ((d : ℕ) : ℝ) ^ 2 * (1 + Y) := by
    intro d
    have hd : ((d : ℕ) : ℝ) ≤ B' - 1 := by
      have : ((d : ℕ) : ℝ) + 1 ≤ B := by exact_mod_cast d.2
      linarith
    have hd0 : (0 : ℝ) ≤ ((d : ℕ) : ℝ) := Nat.cast_nonneg _
    have hle : y * ((d : ℕ) : ℝ) ^ 2 ≤ Y := by
      rw [hYd]
      gcongr
    have hnn : 0 ≤ y * ((d : ℕ) : ℝ) ^ 2 := by positivity
    have := exp_le_quad hnn (le_trans hle hY)
    nlinarith [mul_le_mul_of_nonneg_left hle hnn]
  refine le_trans (sum_le_sum fun d _ => h1 d) ?_
  rw [sum_add_distrib, ← sum_mul, ← mul_sum, sum_sq_fin]
  simp only [sum_const, card_univ, Fintype.card_fin, nsmul_eq_mul, mul_one]
  have h2 : ((B : ℝ) - 1) * (2 * B - 1) ≤ (B' - 1) * (2 * B' - 1) := by
    apply mul_le_mul <;> linarith
  have h3 := Real.add_one_le_exp (y * (((B' : ℝ) - 1) * (2 * B' - 1) / 6) * (1 + Y))
  have h4 : y * (B * (((B : ℝ) - 1) * (2 * B - 1)) / 6) * (1 + Y) ≤
      B * (y * (((B' : ℝ) - 1) * (2 * B' - 1) / 6) * (1 + Y)) := by
    have : 0 ≤ (B : ℝ) * y * (1 + Y) := by positivity
    nlinarith [mul_le_mul_of_nonneg_left h2 this]
  nlinarith [mul_le_mul_of_nonneg_left h3 (by linarith : (0 : ℝ) ≤ B)]

/-- Moment generating function of the noise over random rows `x i` and random samples `t`. -/
theorem mgf_random {m : Nat} {X : Type} [Fintype X] (I : Nat) (c : X → ℝ) (l E : ℝ)
    (hE : ∑ x, Real.exp (l ^ 2 * c x ^ 2 / 3) ≤ Fintype.card X * E) (s : ℝ) (hs : s = 1 ∨ s = -1) :
    ∑ p : (Fin m → X) × (Fin m → Fin (3 * I + 1)), Real.exp (l * (s * noiseOf I (fun i => c (p.1 i)) p.2)) ≤
      Fintype.card X ^ m * (3 * I + 1) ^ m * E ^ m := by
  have hs2 : s ^ 2 = 1 := by rcases hs with rfl | rfl <;> norm_num
  rw [Fintype.sum_prod_type]
  have h1 : ∀ x : Fin m → X, ∑ t, Real.exp (l * (s * noiseOf I (fun i => c (x i)) t)) ≤
      (3 * I + 1) ^ m * ∏ i, Real.exp (l ^ 2 * c (x i) ^ 2 / 3) := by
    intro x
    have h := mgf_sum_le I (fun i => c (x i)) (l * s)
    rw [mul_pow, hs2, mul_one] at h
    rw [← Real.exp_sum, ← sum_div, ← mul_sum]
    refine le_trans (le_of_eq (sum_congr rfl fun t _ => ?_)) h
    unfold noiseOf
    rw [mul_assoc]
  refine le_trans (sum_le_sum fun x _ => h1 x) ?_
  rw [← mul_sum]
  have h2 := Finset.prod_univ_sum (fun _ : Fin m => (univ : Finset X)) (fun _ x => Real.exp (l ^ 2 * c x ^ 2 / 3))
  rw [Fintype.piFinset_univ] at h2
  rw [← h2, prod_const, card_univ, Fintype.card_fin]
  have h3 : (∑ x, Real.exp (l ^ 2 * c x ^ 2 / 3)) ^ m ≤ (Fintype.card X * E) ^ m :=
    pow_le_pow_left₀ (sum_nonneg fun x _ => (Real.exp_pos _).le) hE m
  rw [mul_pow] at h3
  calc (3 * (I : ℝ) + 1) ^ m * (∑ x, Real.exp (l ^ 2 * c x ^ 2 / 3)) ^ m
      ≤ (3 * (I : ℝ) + 1) ^ m * (Fintype.card X ^ m * E ^ m) := mul_le_mul_of_nonneg_left h3 (by positivity)
    _ = _ := by ring

theorem tail_random {m : Nat} {X : Type} [Fintype X] (I : Nat) (c : X → ℝ) (a l E : ℝ) (hl : 0 ≤ l)
    (hE : ∑ x, Real.exp (l ^ 2 * c x ^ 2 / 3) ≤ Fintype.card X * E) :
    ((univ.filter fun p : (Fin m → X) × (Fin m → Fin (3 * I + 1)) =>
        a ≤ |noiseOf I (fun i => c (p.1 i)) p.2|).card : ℝ) ≤
      2 * (Real.exp (-(l * a)) * E ^ m) * (Fintype.card X ^ m * (3 * I + 1) ^ m) := by
  classical
  have one : ∀ s : ℝ, s = 1 ∨ s = -1 →
      ((univ.filter fun p : (Fin m → X) × (Fin m → Fin (3 * I + 1)) =>
        a ≤ s * noiseOf I (fun i => c (p.1 i)) p.2).card : ℝ) ≤
      Real.exp (-(l * a)) * E ^ m * (Fintype.card X ^ m * (3 * I + 1) ^ m) := by
    intro s hs
    have h1 := mgf_random (m := m) I c l E hE s hs
    have h2 : ((univ.filter fun p : (Fin m → X) × (Fin m → Fin (3 * I + 1)) =>
        a ≤ s * noiseOf I (fun i => c (p.1 i)) p.2).card : ℝ) * Real.exp (l * a) ≤
        ∑ p : (Fin m → X) × (Fin m → Fin (3 * I + 1)), Real.exp (l * (s * noiseOf I (fun i => c (p.1 i)) p.2)) := by
      rw [← nsmul_eq_mul, ← sum_const]
      refine le_trans (sum_le_sum fun t ht => ?_)
        (sum_le_sum_of_subset_of_nonneg (filter_subset _ _) fun _ _ _ => (Real.exp_pos _).le)
      rw [mem_filter] at ht
      exact Real.exp_le_exp.2 (mul_le_mul_of_nonneg_left ht.2 hl)
    rw [Real.exp_neg, ← div_eq_inv_mul, div_mul_eq_mul_div, le_div_iff₀ (Real.exp_pos _)]
    refine le_trans h2 (le_trans h1 (le_of_eq ?_))
    ring
  have h3 : (univ.filter fun p : (Fin m → X) × (Fin m → Fin (3 * I + 1)) =>
        a ≤ |noiseOf I (fun i => c (p.1 i)) p.2|) ⊆
      (univ.filter fun p => a ≤ 1 * noiseOf I (fun i => c (p.1 i)) p.2) ∪
      (univ.filter fun p => a ≤ -1 * noiseOf I (fun i => c (p.1 i)) p.2) := by
    intro t ht
    rw [mem_filter] at ht
    rw [mem_union, mem_filter, mem_filter]
    rcases le_abs.1 ht.2 with h | h
    · exact Or.inl ⟨mem_univ _, by linarith⟩
    · exact Or.inr ⟨mem_univ _, by linarith⟩
  have h4 := (Nat.cast_le (α := ℝ)).2 (le_trans (card_le_card h3) (card_union_le _ _))
  rw [Nat.cast_add] at h4
  have := one 1 (Or.inl rfl)
  have := one (-1) (Or.inr rfl)
  linarith

end Chalamet
