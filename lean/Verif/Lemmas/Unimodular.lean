import Mathlib.Data.BitVec
import Mathlib.LinearAlgebra.Matrix.Rank
import Mathlib.LinearAlgebra.Matrix.NonsingularInverse
import Mathlib.Data.ZMod.Basic
import Mathlib.Algebra.Field.ZMod
import Mathlib.Data.Fintype.BigOperators

/-!
# Matrices of 32-bit words whose rows are independent modulo 2

They have a right inverse modulo 2^32, and all but a share of 2^(m-n) of the m-by-n matrices are of this kind.
-/

namespace Chalamet
open Matrix

/-- The parity of a word. -/
def parity : BitVec 32 →+* ZMod 2 where
  toFun x := (x.toNat : ZMod 2)
  map_zero' := by simp
  map_one' := by simp
  map_add' x y := by
    rw [BitVec.toNat_add]
    have h : ((2 ^ 32 : ℕ) : ZMod 2) = 0 := by rw [ZMod.natCast_eq_zero_iff]; exact ⟨2 ^ 31, by norm_num⟩
    conv_rhs => rw [← Nat.cast_add, ← Nat.mod_add_div (x.toNat + y.toNat) (2 ^ 32)]
    rw [Nat.cast_add, Nat.cast_mul, h, zero_mul, add_zero]
  map_mul' x y := by
    rw [BitVec.toNat_mul]
    have h : ((2 ^ 32 : ℕ) : ZMod 2) = 0 := by rw [ZMod.natCast_eq_zero_iff]; exact ⟨2 ^ 31, by norm_num⟩
    conv_rhs => rw [← Nat.cast_mul, ← Nat.mod_add_div (x.toNat * y.toNat) (2 ^ 32)]
    rw [Nat.cast_add, Nat.cast_mul _ (_ / _), h, zero_mul, add_zero]

theorem isUnit_of_parity {x : BitVec 32} (h : parity x = 1) : IsUnit x := by
  have ho : Odd x.toNat := by
    rw [← ZMod.natCast_eq_one_iff_odd]; exact h
  have hcop : Nat.Coprime x.toNat (2 ^ 32) := (Nat.coprime_two_right.2 ho).pow_right 32
  obtain ⟨y, _, hy⟩ := Nat.exists_mul_mod_eq_one_of_coprime hcop (by norm_num)
  refine isUnit_iff_exists_inv.2 ⟨BitVec.ofNat 32 y, ?_⟩
  apply BitVec.eq_of_toNat_eq
  rw [BitVec.toNat_mul, BitVec.toNat_ofNat, Nat.mul_mod_mod, hy]
  rfl

theorem parity_lift (z : ZMod 2) : ∃ x : BitVec 32, parity x = z := by
  fin_cases z
  · exact ⟨0, map_zero _⟩
  · exact ⟨1, map_one _⟩

/-- Rows that are independent modulo 2 give a right inverse modulo 2^32. -/
theorem right_inverse_of_independent {m n : Nat} (A : Matrix (Fin m) (Fin n) (BitVec 32))
    (h : ∀ c : Fin m → ZMod 2, c ᵥ* (A.map parity) = 0 → c = 0) :
    ∃ W : Matrix (Fin n) (Fin m) (BitVec 32), A * W = 1 := by
  have hli : LinearIndependent (ZMod 2) (A.map parity).row := by
    rw [Fintype.linearIndependent_iff]
    intro g hg i
    have : g ᵥ* (A.map parity) = 0 := by
      rw [← hg]
      ext k
      simp [vecMul, dotProduct, Finset.sum_apply]
    exact congrFun (h g this) i
  have hrank := hli.rank_matrix
  have hsurj : Function.Surjective (A.map parity).mulVecLin := by
    rw [← LinearMap.range_eq_top]
    apply Submodule.eq_top_of_finrank_eq
    rw [← Matrix.rank, hrank]
    simp
  choose W0 hW0 using fun i : Fin m => hsurj (Pi.single i 1)
  choose lift hlift using parity_lift
  let W1 : Matrix (Fin n) (Fin m) (BitVec 32) := fun k i => lift (W0 i k)
  have hpar : (A * W1).map parity = 1 := by
    ext j i
    have := congrFun (hW0 i) j
    simp only [mulVecLin_apply, mulVec, dotProduct, map_apply] at this
    rw [map_apply, mul_apply, map_sum]
    simp only [map_mul, W1, hlift]
    rw [this, one_apply, Pi.single_apply]
  have hdet : parity (A * W1).det = 1 := by
    rw [RingHom.map_det, RingHom.mapMatrix_apply, hpar, det_one]
  refine ⟨W1 * (A * W1)⁻¹, ?_⟩
  rw [← Matrix.mul_assoc]
  exact Matrix.mul_nonsing_inv _ (isUnit_of_parity hdet)

/-- Half of the vectors have an even sum over the positions where `c` is 1. -/
theorem card_even {V : Type} [Fintype V] [DecidableEq V] (p : V → ZMod 2) (flip : V ≃ V) (hflip : ∀ x, p (flip x) = p x + 1)
    {m : Nat} (c : Fin m → ZMod 2) (hc : c ≠ 0) :
    (Finset.univ.filter fun v : Fin m → V => ∑ j, c j * p (v j) = 0).card * 2 = Fintype.card V ^ m := by
  obtain ⟨j0, hj0⟩ := Function.ne_iff.1 hc
  have hc1 : c j0 = 1 := by
    have : ∀ z : ZMod 2, z ≠ 0 → z = 1 := by decide
    exact this _ hj0
  have hupd : ∀ v : Fin m → V, ∑ j, c j * p (Function.update v j0 (flip (v j0)) j) = ∑ j, c j * p (v j) + 1 := by
    intro v
    rw [← Finset.add_sum_erase _ _ (Finset.mem_univ j0), ← Finset.add_sum_erase _ (fun j => c j * p (v j)) (Finset.mem_univ j0)]
    have : ∑ j ∈ Finset.univ.erase j0, c j * p (Function.update v j0 (flip (v j0)) j) = ∑ j ∈ Finset.univ.erase j0, c j * p (v j) :=
      Finset.sum_congr rfl fun j hj => by rw [Function.update_of_ne (Finset.ne_of_mem_erase hj)]
    rw [this, Function.update_self, hflip, hc1]
    ring
  have hz : ∀ z : ZMod 2, z + 1 = 0 ↔ ¬ z = 0 := by decide
  have heq : (Finset.univ.filter fun v : Fin m → V => ∑ j, c j * p (v j) = 0).card =
      (Finset.univ.filter fun v : Fin m → V => ¬ ∑ j, c j * p (v j) = 0).card := by
    refine (Finset.card_bij (fun v _ => Function.update v j0 (flip (v j0))) ?_ ?_ ?_).symm
    · intro v hv
      rw [Finset.mem_filter] at hv ⊢
      exact ⟨Finset.mem_univ _, by rw [hupd, hz]; exact hv.2⟩
    · intro v _ w _ h
      funext j
      have hj := congrFun h j
      by_cases e : j = j0
      · subst e
        simpa using hj
      · simpa [Function.update_of_ne e] using hj
    · intro w hw
      refine ⟨Function.update w j0 (flip.symm (w j0)), ?_, ?_⟩
      · rw [Finset.mem_filter] at hw ⊢
        refine ⟨Finset.mem_univ _, ?_⟩
        have := hupd (Function.update w j0 (flip.symm (w j0)))
        simp only [Function.update_self, Equiv.apply_symm_apply, Function.update_idem, Function.update_eq_self] at this
        rw [hw.2] at this
        exact (hz _).1 this.symm
      · simp
  have htot := Finset.card_filter_add_card_filter_not (s := (Finset.univ : Finset (Fin m → V))) (fun v => ∑ j, c j * p (v j) = 0)
  rw [← heq, Finset.card_univ, Fintype.card_fun, Fintype.card_fin] at htot
  omega

/-- The share of matrices with rows that are dependent modulo 2. -/
theorem card_dependent {V : Type} [Fintype V] [DecidableEq V] (p : V → ZMod 2) (flip : V ≃ V) (hflip : ∀ x, p (flip x) = p x + 1)
    (m n : Nat) :
    (Finset.univ.filter fun A : Fin m → Fin n → V => ∃ c : Fin m → ZMod 2, c ≠ 0 ∧ ∀ k, ∑ j, c j * p (A j k) = 0).card * 2 ^ n ≤
      2 ^ m * Fintype.card V ^ (m * n) := by
  have hone : ∀ c : Fin m → ZMod 2, c ≠ 0 →
      (Finset.univ.filter fun A : Fin m → Fin n → V => ∀ k, ∑ j, c j * p (A j k) = 0).card * 2 ^ n = Fintype.card V ^ (m * n) := by
    intro c hc
    have h1 : (Finset.univ.filter fun A : Fin m → Fin n → V => ∀ k, ∑ j, c j * p (A j k) = 0).card =
        (Fintype.piFinset fun _ : Fin n => Finset.univ.filter fun v : Fin m → V => ∑ j, c j * p (v j) = 0).card := by
      refine Finset.card_equiv (Equiv.piComm fun _ _ => V) ?_
      intro A
      simp [Fintype.mem_piFinset]
    rw [h1, Fintype.card_piFinset_const, ← Nat.mul_pow, card_even p flip hflip c hc, Nat.pow_mul]
  have hsub : (Finset.univ.filter fun A : Fin m → Fin n → V => ∃ c : Fin m → ZMod 2, c ≠ 0 ∧ ∀ k, ∑ j, c j * p (A j k) = 0) ⊆
      (Finset.univ.filter fun c : Fin m → ZMod 2 => c ≠ 0).biUnion fun c =>
        Finset.univ.filter fun A : Fin m → Fin n → V => ∀ k, ∑ j, c j * p (A j k) = 0 := by
    intro A hA
    obtain ⟨c, hc, hA⟩ := (Finset.mem_filter.1 hA).2
    exact Finset.mem_biUnion.2 ⟨c, by simp [hc], by simp [hA]⟩
  refine le_trans (Nat.mul_le_mul_right _ ((Finset.card_le_card hsub).trans Finset.card_biUnion_le)) ?_
  rw [Finset.sum_mul, Finset.sum_congr rfl fun c hc => hone c (Finset.mem_filter.1 hc).2, Finset.sum_const, smul_eq_mul]
  refine Nat.mul_le_mul_right _ ((Finset.card_filter_le _ _).trans (le_of_eq ?_))
  simp [ZMod.card]

end Chalamet
