import Verif.Spec
import Verif.Model.Api
import Mathlib.Tactic.Ring
import Mathlib.Tactic.Linarith

/-! Scaling constants and the rounding step (helper lemmas). -/

namespace Chalamet
open Spec

/-- `D = 2^(32-b)`. -/
theorem pow_split {b : Nat} (h : b ≤ 32) : 2 ^ (32 - b) * 2 ^ b = 2 ^ 32 := by
  rw [← Nat.pow_add]; congr 1; omega

theorem getPlaintextSize_ok {prof : Profile} {b : Nat} (h : b ≤ 31) :
    getPlaintextSize prof b = .ok (BitVec.ofNat 32 (2 ^ b)) := by
  unfold getPlaintextSize
  have : b % 2 ^ 32 = b := Nat.mod_eq_of_lt (by omega)
  simp only [this]
  rw [if_pos (by omega)]

theorem toNat_pow {b : Nat} (h : b ≤ 31) : (BitVec.ofNat 32 (2 ^ b)).toNat = 2 ^ b := by
  rw [BitVec.toNat_ofNat]
  exact Nat.mod_eq_of_lt (Nat.pow_lt_pow_right (by omega) (by omega))

theorem getRoundingFactor_ok {prof : Profile} {b : Nat} (h : b ≤ 31) :
    getRoundingFactor prof b = .ok (BitVec.ofNat 32 (2 ^ (32 - b))) := by
  unfold getRoundingFactor
  rw [getPlaintextSize_ok h, Res.bind_ok, toNat_pow h, if_neg (by have := Nat.two_pow_pos b; omega)]
  congr 2
  rw [lweModulus, ← pow_split (b := b) (by omega), Nat.mul_div_cancel _ (Nat.two_pow_pos b)]

theorem toNat_factor {b : Nat} (h1 : 1 ≤ b) :
    (BitVec.ofNat 32 (2 ^ (32 - b))).toNat = 2 ^ (32 - b) := by
  rw [BitVec.toNat_ofNat]
  exact Nat.mod_eq_of_lt (Nat.pow_lt_pow_right (by omega) (by omega))

theorem getRoundingFloor_ok {prof : Profile} {b : Nat} (h1 : 1 ≤ b) (h : b ≤ 31) :
    getRoundingFloor prof b = .ok (BitVec.ofNat 32 (2 ^ (31 - b))) := by
  unfold getRoundingFloor
  rw [getRoundingFactor_ok h, Res.bind_ok]
  congr 1
  apply BitVec.eq_of_toNat_eq
  have e : (BitVec.ofNat 32 (2 ^ (31 - b))).toNat = 2 ^ (31 - b) := by
    rw [BitVec.toNat_ofNat]
    exact Nat.mod_eq_of_lt (Nat.pow_lt_pow_right (by omega) (by omega))
  rw [BitVec.toNat_udiv, toNat_factor h1, e]
  have : 32 - b = (31 - b) + 1 := by omega
  rw [this, Nat.pow_succ]
  simp

/-- Rounding of `D*y + ν`. -/
theorem roundCoord_val {prof : Profile} {b : Nat} (h1 : 1 ≤ b) (h : b ≤ 31) (y nu rhs : U32) :
    ∃ r, roundCoord prof (BitVec.ofNat 32 (2 ^ (32 - b))) (BitVec.ofNat 32 (2 ^ (31 - b)))
        (BitVec.ofNat 32 (2 ^ (32 - b)) * y + nu + rhs) rhs = .ok r ∧
      r.toNat % 2 ^ b = (y.toNat + nu.toNat / 2 ^ (32 - b) +
        if nu.toNat % 2 ^ (32 - b) > 2 ^ (31 - b) then 1 else 0) % 2 ^ b := by
  have hDpos := Nat.two_pow_pos (32 - b)
  have hPpos := Nat.two_pow_pos b
  have hDP := pow_split (b := b) (by omega)
  have hfac := toNat_factor h1
  have hD1 : 2 ^ (32 - b) = 2 * 2 ^ (31 - b) := by
    have : 32 - b = (31 - b) + 1 := by omega
    rw [this, Nat.pow_succ]; ring
  have hhalf := Nat.two_pow_pos (31 - b)
  have hfloor : (BitVec.ofNat 32 (2 ^ (31 - b))).toNat = 2 ^ (31 - b) := by
    rw [BitVec.toNat_ofNat]
    exact Nat.mod_eq_of_lt (Nat.pow_lt_pow_right (by omega) (by omega))
  set D := BitVec.ofNat 32 (2 ^ (32 - b)) with hDdef
  set F := BitVec.ofNat 32 (2 ^ (31 - b)) with hFdef
  clear_value D F
  have hsub : D * y + nu + rhs - rhs = D * y + nu := by
    rw [BitVec.add_sub_cancel]
  have hne : D ≠ 0#32 := by
    intro he; rw [he] at hfac; simp at hfac; omega
  have hu : (D * y + nu).toNat = (2 ^ (32 - b) * y.toNat + nu.toNat) % (2 ^ (32 - b) * 2 ^ b) := by
    rw [BitVec.toNat_add, BitVec.toNat_mul, hfac, hDP]
    simp [Nat.add_mod]
  generalize 2 ^ (32 - b) = d at *
  generalize 2 ^ (31 - b) = f at *
  generalize hP : 2 ^ b = p at *
  have hrem : (D * y + nu).toNat % d = nu.toNat % d := by
    rw [hu, Nat.mod_mul_right_mod, Nat.mul_add_mod]
  have hquo : (D * y + nu).toNat / d = (y.toNat + nu.toNat / d) % p := by
    rw [hu, Nat.mod_mul_right_div_self, Nat.mul_add_div hDpos]
  unfold roundCoord
  simp only [hsub]
  rw [if_neg hne]
  have hcond : ((D * y + nu) % D > F) ↔ nu.toNat % d > f := by
    show F < (D * y + nu) % D ↔ _
    rw [BitVec.lt_def, BitVec.toNat_umod, hfac, hfloor, hrem]
  have hq : ((D * y + nu) / D).toNat = (y.toNat + nu.toNat / d) % p := by
    rw [BitVec.toNat_udiv, hfac, hquo]
  have hplt : p ≤ 2 ^ 31 := by rw [← hP]; exact Nat.pow_le_pow_right (by omega) h
  have hmod := Nat.mod_lt (y.toNat + nu.toNat / d) hPpos
  by_cases hc : nu.toNat % d > f
  · rw [if_pos (hcond.2 hc), if_pos hc]
    refine ⟨(D * y + nu) / D + 1#32, addC_ok ?_, ?_⟩
    · rw [hq]; simp; omega
    · rw [BitVec.toNat_add, hq]
      simp only [BitVec.toNat_ofNat]
      rw [Nat.mod_eq_of_lt (by omega : (y.toNat + nu.toNat / d) % p + 1 % 2 ^ 32 < 2 ^ 32)]
      simp [Nat.add_mod]
  · rw [if_neg (fun h => hc (hcond.1 h)), if_neg hc]
    exact ⟨_, rfl, by rw [hq]; simp⟩

/-- The noise window: `-D/2 < ν ≤ D/2`, in natural-number form. -/
theorem window_iff {b : Nat} (h1 : 1 ≤ b) (h : b ≤ 31) (nu : U32) :
    (-(2 ^ (31 - b) : Int) < signed nu ∧ signed nu ≤ 2 ^ (31 - b)) ↔
      (nu.toNat ≤ 2 ^ (31 - b) ∨ 2 ^ 32 - 2 ^ (31 - b) < nu.toNat) := by
  have hlt := nu.isLt
  have hhalf := Nat.two_pow_pos (31 - b)
  have hf : (2 : Nat) ^ (31 - b) ≤ 2 ^ 30 := Nat.pow_le_pow_right (by omega) (by omega)
  have hcast : ((2 : Int) ^ (31 - b)) = ((2 ^ (31 - b) : Nat) : Int) := by push_cast; rfl
  unfold signed
  rw [BitVec.toInt_eq_toNat_cond, hcast]
  generalize 2 ^ (31 - b) = f at *
  split <;> omega

/-- The carry added by the noise is 0 mod `2^b` exactly in the window. -/
theorem carry_iff {b : Nat} (h1 : 1 ≤ b) (h : b ≤ 31) (nu : U32) :
    (nu.toNat / 2 ^ (32 - b) + if nu.toNat % 2 ^ (32 - b) > 2 ^ (31 - b) then 1 else 0) % 2 ^ b = 0 ↔
      (nu.toNat ≤ 2 ^ (31 - b) ∨ 2 ^ 32 - 2 ^ (31 - b) < nu.toNat) := by
  have hDP := pow_split (b := b) (by omega)
  have hD1 : 2 ^ (32 - b) = 2 * 2 ^ (31 - b) := by
    have : 32 - b = (31 - b) + 1 := by omega
    rw [this, Nat.pow_succ]; ring
  have hhalf := Nat.two_pow_pos (31 - b)
  have hlt := nu.isLt
  have hP2 : 2 ≤ 2 ^ b := by
    calc 2 = 2 ^ 1 := rfl
      _ ≤ 2 ^ b := Nat.pow_le_pow_right (by omega) h1
  generalize nu.toNat = n at *
  generalize 2 ^ (31 - b) = f at *
  generalize 2 ^ b = p at *
  rw [hD1] at hDP ⊢
  generalize 2 ^ (32 - b) = d at *
  have hdm := Nat.div_add_mod n (2 * f)
  have hm := Nat.mod_lt n (show 0 < 2 * f by omega)
  have hq : n / (2 * f) < p := by
    rw [Nat.div_lt_iff_lt_mul (by omega), Nat.mul_comm]; omega
  generalize n / (2 * f) = q at *
  generalize n % (2 * f) = r at *
  rw [← hDP] at hlt ⊢
  by_cases hc : r > f
  · rw [if_pos hc]
    constructor
    · intro h0
      have hq1 : q + 1 = p := by
        by_contra hne
        rw [Nat.mod_eq_of_lt (by omega)] at h0
        omega
      right
      rw [← hq1, Nat.mul_add]
      omega
    · rintro (h0 | h0)
      · exfalso
        rcases Nat.eq_zero_or_pos q with rfl | hq0
        · omega
        · have : 2 * f * 1 ≤ 2 * f * q := Nat.mul_le_mul_left _ hq0
          omega
      · have hq1 : q + 1 = p := by
          by_contra hne
          have : 2 * f * (q + 2) ≤ 2 * f * p := Nat.mul_le_mul_left _ (by omega)
          rw [Nat.mul_add] at this
          omega
        rw [hq1, Nat.mod_self]
  · rw [if_neg hc, Nat.add_zero, Nat.mod_eq_of_lt hq]
    constructor
    · rintro rfl; omega
    · rintro (h0 | h0)
      · by_contra hne
        have : 2 * f * 1 ≤ 2 * f * q := Nat.mul_le_mul_left _ (by omega)
        omega
      · exfalso
        have : 2 * f * (q + 1) ≤ 2 * f * p := Nat.mul_le_mul_left _ (by omega)
        rw [Nat.mul_add] at this
        omega

theorem modPlain_ok {b : Nat} (h : b ≤ 31) (x : U32) :
    modPlain x (BitVec.ofNat 32 (2 ^ b)) = .ok (BitVec.ofNat 32 (x.toNat % 2 ^ b)) := by
  unfold modPlain
  have hp := toNat_pow h
  have hpos := Nat.two_pow_pos b
  rw [if_neg]
  · congr 1
    apply BitVec.eq_of_toNat_eq
    rw [BitVec.toNat_umod, hp, BitVec.toNat_ofNat]
    symm
    apply Nat.mod_eq_of_lt
    have := Nat.mod_lt x.toNat hpos
    have h2 : 2 ^ b ≤ 2 ^ 31 := Nat.pow_le_pow_right (by omega) h
    omega
  · intro he
    rw [he] at hp; simp at hp; omega

end Chalamet
