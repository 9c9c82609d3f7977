import Verif.Lemmas.Hoeffding
import Mathlib.Algebra.Order.BigOperators.Ring.Finset
import Mathlib.Algebra.Order.Chebyshev
import Mathlib.Algebra.BigOperators.Fin
import Mathlib.Tactic.Ring

/-! Second and fourth moments of sums of three-valued samples, and the Paley–Zygmund inequality (helper lemmas). -/

namespace Chalamet
open Finset

/-- The noise of the sample point `t` on the column `c`. -/
noncomputable def noiseOf {m : Nat} (I : Nat) (c : Fin m → ℝ) (t : Fin m → Fin (3 * I + 1)) : ℝ :=
  ∑ i, clsOf I (t i) * c i

theorem sum_fin_clsOf (I : Nat) (F : ℤ → ℝ) :
    ∑ v : Fin (3 * I + 1), F (clsOf I v) = (I + 1) * F 0 + I * F 1 + I * F (-1) := by
  rw [← sum_clsOf I F, ← Fin.sum_univ_eq_sum_range (fun v => F (clsOf I v))]

theorem sum_cons {m : Nat} {α : Type} [Fintype α] (F : (Fin (m + 1) → α) → ℝ) :
    ∑ t, F t = ∑ a : α, ∑ t : Fin m → α, F (Fin.cons a t) := by
  rw [← Fintype.sum_prod_type']
  exact (Fintype.sum_equiv (Fin.consEquiv fun _ => α) _ _ (fun x => rfl)).symm

theorem noiseOf_cons {m : Nat} (I : Nat) (c : Fin (m + 1) → ℝ) (a : Fin (3 * I + 1)) (t : Fin m → Fin (3 * I + 1)) :
    noiseOf I c (Fin.cons a t) = clsOf I a * c 0 + noiseOf I (fun i => c i.succ) t := by
  unfold noiseOf
  rw [Fin.sum_univ_succ]
  simp

theorem moment_two {m : Nat} (I : Nat) (c : Fin m → ℝ) :
    (3 * I + 1) * ∑ t, noiseOf I c t ^ 2 = 2 * I * (3 * I + 1) ^ m * ∑ i, c i ^ 2 := by
  induction m with
  | zero => simp [noiseOf]
  | succ m ih =>
    have ih := ih (fun i => c i.succ)
    rw [sum_cons]
    have h : ∀ a : Fin (3 * I + 1), ∑ t, noiseOf I c (Fin.cons a t) ^ 2 =
        (clsOf I a : ℝ) ^ 2 * (c 0 ^ 2 * (3 * I + 1) ^ m) + (clsOf I a : ℝ) * (2 * c 0 *
          ∑ t, noiseOf I (fun i => c i.succ) t) + ∑ t, noiseOf I (fun i => c i.succ) t ^ 2 := by
      intro a
      have e : ∀ t, noiseOf I c (Fin.cons a t) ^ 2 = (clsOf I a : ℝ) ^ 2 * c 0 ^ 2 +
          (clsOf I a : ℝ) * (2 * c 0) * noiseOf I (fun i => c i.succ) t + noiseOf I (fun i => c i.succ) t ^ 2 := by
        intro t; rw [noiseOf_cons]; ring
      rw [sum_congr rfl fun t _ => e t, sum_add_distrib, sum_add_distrib, sum_const, ← mul_sum, card_univ]
      simp
      ring
    rw [sum_congr rfl fun a _ => h a,
      sum_fin_clsOf I (fun z => (z : ℝ) ^ 2 * (c 0 ^ 2 * (3 * I + 1) ^ m) + (z : ℝ) * (2 * c 0 *
          ∑ t, noiseOf I (fun i => c i.succ) t) + ∑ t, noiseOf I (fun i => c i.succ) t ^ 2), Fin.sum_univ_succ]
    push_cast
    linear_combination (3 * (I : ℝ) + 1) * ih

theorem moment_four {m : Nat} (I : Nat) (hI : 1 ≤ I) (c : Fin m → ℝ) :
    (3 * I + 1) ^ 2 * ∑ t, noiseOf I c t ^ 4 ≤ 3 * (2 * I) ^ 2 * (3 * I + 1) ^ m * (∑ i, c i ^ 2) ^ 2 := by
  induction m with
  | zero => simp [noiseOf]
  | succ m ih =>
    have ih := ih (fun i => c i.succ)
    have h2 := moment_two I (fun i => c i.succ)
    have hI' : (1 : ℝ) ≤ I := by exact_mod_cast hI
    rw [sum_cons]
    set N := noiseOf I (fun i => c i.succ) with hN
    have h : ∀ a : Fin (3 * I + 1), ∑ t, noiseOf I c (Fin.cons a t) ^ 4 =
        (clsOf I a : ℝ) ^ 4 * (c 0 ^ 4 * (3 * I + 1) ^ m) + (clsOf I a : ℝ) ^ 3 * (4 * c 0 ^ 3 * ∑ t, N t) +
          (clsOf I a : ℝ) ^ 2 * (6 * c 0 ^ 2 * ∑ t, N t ^ 2) + (clsOf I a : ℝ) * (4 * c 0 * ∑ t, N t ^ 3) +
          ∑ t, N t ^ 4 := by
      intro a
      have e : ∀ t, noiseOf I c (Fin.cons a t) ^ 4 = (clsOf I a : ℝ) ^ 4 * c 0 ^ 4 +
          (clsOf I a : ℝ) ^ 3 * (4 * c 0 ^ 3) * N t + (clsOf I a : ℝ) ^ 2 * (6 * c 0 ^ 2) * N t ^ 2 +
          (clsOf I a : ℝ) * (4 * c 0) * N t ^ 3 + N t ^ 4 := by
        intro t; rw [noiseOf_cons]; ring
      rw [sum_congr rfl fun t _ => e t, sum_add_distrib, sum_add_distrib, sum_add_distrib, sum_add_distrib,
        sum_const, ← mul_sum, ← mul_sum, ← mul_sum, card_univ]
      simp
      ring
    rw [sum_congr rfl fun a _ => h a,
      sum_fin_clsOf I (fun z => (z : ℝ) ^ 4 * (c 0 ^ 4 * (3 * I + 1) ^ m) + (z : ℝ) ^ 3 * (4 * c 0 ^ 3 * ∑ t, N t) +
          (z : ℝ) ^ 2 * (6 * c 0 ^ 2 * ∑ t, N t ^ 2) + (z : ℝ) * (4 * c 0 * ∑ t, N t ^ 3) +
          ∑ t, N t ^ 4), Fin.sum_univ_succ]
    push_cast
    set V := ∑ i : Fin m, c i.succ ^ 2
    set P := (3 * (I : ℝ) + 1) ^ m with hP
    have hP0 : 0 ≤ P := by positivity
    have hK : (0 : ℝ) ≤ 3 * I + 1 := by positivity
    have key : (3 * (I : ℝ) + 1) ^ 2 * (2 * I) * c 0 ^ 4 * P ≤ 3 * (2 * I) ^ 2 * (3 * I + 1) * c 0 ^ 4 * P := by
      have : (3 * (I : ℝ) + 1) ≤ 6 * I := by linarith
      have h4 : 0 ≤ (3 * (I : ℝ) + 1) * (2 * I) * c 0 ^ 4 * P := by positivity
      nlinarith [mul_le_mul_of_nonneg_right this h4]
    have ih' := mul_le_mul_of_nonneg_left ih hK
    have e1 : (3 * (I : ℝ) + 1) ^ (m + 1) = (3 * I + 1) * P := by rw [pow_succ]; ring
    rw [e1]
    have e2 : (3 * (I : ℝ) + 1) ^ 2 * (2 * I) * (6 * c 0 ^ 2 * ∑ t, N t ^ 2) =
        (3 * I + 1) * (2 * I) * (6 * c 0 ^ 2) * (2 * I * P * V) := by
      rw [← h2]; ring
    nlinarith [key, ih', e2]

/-- Paley–Zygmund: the noise exceeds `a` on a constant fraction of the sample points when `a^2` is below its mean
square `2I/(3I+1) * Σ c^2`. -/
theorem paley_zygmund {m : Nat} (I : Nat) (hI : 1 ≤ I) (c : Fin m → ℝ) (a v : ℝ) (hv : 0 < v)
    (hvar : (3 * I + 1) * v = 2 * I * ∑ i, c i ^ 2) (ha : a ^ 2 ≤ v) :
    (1 - a ^ 2 / v) ^ 2 / 3 * (3 * I + 1) ^ m ≤
      ((univ.filter fun t : Fin m → Fin (3 * I + 1) => a < |noiseOf I c t|).card : ℝ) := by
  classical
  set P := (3 * (I : ℝ) + 1) ^ m with hP
  have hK : (0 : ℝ) < 3 * I + 1 := by positivity
  have hP0 : 0 < P := by positivity
  set A := univ.filter fun t : Fin m → Fin (3 * I + 1) => a < |noiseOf I c t| with hA
  have h2 : ∑ t, noiseOf I c t ^ 2 = P * v := by
    have := moment_two I c
    have e : (3 * (I : ℝ) + 1) * ∑ t, noiseOf I c t ^ 2 = (3 * I + 1) * (P * v) := by
      rw [this]; linear_combination (-P) * hvar
    exact mul_left_cancel₀ hK.ne' e
  have h4 : ∑ t, noiseOf I c t ^ 4 ≤ 3 * P * v ^ 2 := by
    have := moment_four I hI c
    have e : 3 * (2 * (I : ℝ)) ^ 2 * P * (∑ i, c i ^ 2) ^ 2 = (3 * I + 1) ^ 2 * (3 * P * v ^ 2) := by
      have : (2 * (I : ℝ) * ∑ i, c i ^ 2) ^ 2 = ((3 * I + 1) * v) ^ 2 := by rw [hvar]
      linear_combination 3 * P * this
    rw [e] at this
    exact le_of_mul_le_mul_left this (by positivity)
  have hsplit : ∑ t, noiseOf I c t ^ 2 ≤ ∑ t ∈ A, noiseOf I c t ^ 2 + a ^ 2 * P := by
    rw [← sum_filter_add_sum_filter_not univ (fun t => a < |noiseOf I c t|)]
    refine add_le_add_right ?_ _ |>.trans_eq' rfl |>.trans le_rfl
    have hb : ∀ t ∈ univ.filter (fun t : Fin m → Fin (3 * I + 1) => ¬ a < |noiseOf I c t|),
        noiseOf I c t ^ 2 ≤ a ^ 2 := by
      intro t ht
      have h := (mem_filter.1 ht).2
      rw [not_lt] at h
      exact sq_le_sq' (by linarith [neg_abs_le (noiseOf I c t)]) (le_trans (le_abs_self _) h)
    refine le_trans (sum_le_card_nsmul _ _ _ hb) ?_
    rw [nsmul_eq_mul, mul_comm]
    refine mul_le_mul_of_nonneg_left ?_ (sq_nonneg a)
    have : ((univ.filter (fun t : Fin m → Fin (3 * I + 1) => ¬ a < |noiseOf I c t|)).card : ℝ) ≤
        ((3 * I + 1) ^ m : ℕ) := by
      norm_cast
      refine le_trans (card_le_univ _) (le_of_eq ?_)
      simp
    push_cast at this
    exact this
  have hcs : (∑ t ∈ A, noiseOf I c t ^ 2) ^ 2 ≤ A.card * ∑ t ∈ A, (noiseOf I c t ^ 2) ^ 2 := sq_sum_le_card_mul_sum_sq
  have hA4 : ∑ t ∈ A, (noiseOf I c t ^ 2) ^ 2 ≤ 3 * P * v ^ 2 := by
    refine le_trans ?_ h4
    rw [sum_congr rfl (g := fun t => noiseOf I c t ^ 4) (fun t _ => by ring)]
    exact sum_le_sum_of_subset_of_nonneg (subset_univ _) fun t _ _ => by positivity
  have hlow : P * (v - a ^ 2) ≤ ∑ t ∈ A, noiseOf I c t ^ 2 := by rw [h2] at hsplit; linarith
  have hsq : (P * (v - a ^ 2)) ^ 2 ≤ A.card * (3 * P * v ^ 2) :=
    le_trans (pow_le_pow_left₀ (mul_nonneg hP0.le (by linarith)) hlow 2)
      (le_trans hcs (mul_le_mul_of_nonneg_left hA4 (Nat.cast_nonneg _)))
  have e : (1 - a ^ 2 / v) ^ 2 / 3 * P = (P * (v - a ^ 2)) ^ 2 / (3 * P * v ^ 2) := by
    field_simp
  rw [e, div_le_iff₀ (by positivity)]
  exact hsq

end Chalamet
