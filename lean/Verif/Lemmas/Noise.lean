import Verif.Lemmas.Flow

/-! Size of the LWE noise term (helper lemmas). -/

namespace Chalamet
open Spec

theorem weight_le (e : List U32) : weight e ≤ e.length := List.length_filter_le _ _

theorem dot_ternary_ofInt {e c : List U32} {B : Nat} (he : ∀ x ∈ e, IsTernary x)
    (hc : ∀ y ∈ c, y.toNat ≤ B) :
    ∃ z : Int, dot e c = BitVec.ofInt 32 z ∧ -((weight e * B : Nat) : Int) ≤ z ∧
      z ≤ ((weight e * B : Nat) : Int) := by
  induction e generalizing c with
  | nil => exact ⟨0, by simp [dot], by simp [weight], by simp [weight]⟩
  | cons x xs ih =>
    cases c with
    | nil => exact ⟨0, by simp [dot], by omega, by omega⟩
    | cons y ys =>
      obtain ⟨z, h1, h2, h3⟩ := ih (c := ys) (fun a ha => he a (by simp [ha]))
        (fun a ha => hc a (by simp [ha]))
      have hy := hc y (by simp)
      have hyi : y = BitVec.ofInt 32 (y.toNat : Int) := by simp
      rcases he x (by simp) with rfl | rfl | rfl
      · have hw : weight (0#32 :: xs) = weight xs := by simp [weight]
        exact ⟨z, by simp [dot, h1], by rw [hw]; exact h2, by rw [hw]; exact h3⟩
      · have hw : weight (1#32 :: xs) * B = weight xs * B + B := by
          simp [weight, Nat.add_mul]
        refine ⟨(y.toNat : Int) + z, ?_, by rw [hw]; omega, by rw [hw]; omega⟩
        rw [dot, h1, BitVec.ofInt_add, BitVec.one_mul]
        simp
      · have hw : weight (BitVec.allOnes 32 :: xs) * B = weight xs * B + B := by
          have : (BitVec.allOnes 32 ≠ 0#32) := by decide
          simp [weight, Nat.add_mul]
        refine ⟨-(y.toNat : Int) + z, ?_, by rw [hw]; omega, by rw [hw]; omega⟩
        rw [dot, h1, BitVec.ofInt_add, BitVec.ofInt_neg]
        have : BitVec.allOnes 32 * y = -y := by
          rw [← BitVec.neg_one_eq_allOnes, BitVec.neg_mul, BitVec.one_mul]
        rw [this]; simp

theorem signed_ofInt {z : Int} (h1 : -(2 ^ 31 : Int) ≤ z) (h2 : z < 2 ^ 31) :
    signed (BitVec.ofInt 32 z) = z := by
  unfold signed
  rw [BitVec.toInt_ofInt, Int.bmod_def]
  split <;> omega

theorem noise_inWindow {e c : List U32} {b : Nat} (hb1 : 1 ≤ b) (hb : b ≤ 31)
    (he : ∀ x ∈ e, IsTernary x) (hc : ∀ y ∈ c, y.toNat < 2 ^ b)
    (h : weight e * (2 ^ b - 1) < 2 ^ (31 - b)) : InWindow b (dot e c) := by
  obtain ⟨z, h1, h2, h3⟩ := dot_ternary_ofInt (B := 2 ^ b - 1) he
    (fun y hy => by have := hc y hy; omega)
  have hp : (2 : Nat) ^ (31 - b) ≤ 2 ^ 30 := Nat.pow_le_pow_right (by omega) (by omega)
  have hz : ((2 : Int) ^ (31 - b)) = ((2 ^ (31 - b) : Nat) : Int) := by norm_cast
  unfold InWindow
  rw [h1, signed_ofInt (by omega) (by omega), hz]
  omega

theorem column_lt {b j : Nat} (hb : b ≤ 32) (elems : List (List U8)) :
    ∀ y ∈ column b j elems, y.toNat < 2 ^ b := by
  intro y hy
  simp only [column, List.mem_map] at hy
  obtain ⟨e, _, rfl⟩ := hy
  rw [digit_toNat hb]
  exact digit_lt _ _ _

end Chalamet
