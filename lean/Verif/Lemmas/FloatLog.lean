import Verif.Lemmas.Float
import Mathlib.Analysis.SpecialFunctions.Log.Basic
import Mathlib.Analysis.Complex.ExponentialBounds

/-! # Accuracy of the sizes of binary fuse filters, for any accurate logarithm -/

namespace Chalamet

/-- `x` approximates `y` with relative error `δ`. -/
def Approx (δ x y : ℝ) : Prop := y - δ * y ≤ x ∧ x ≤ y + δ * y

theorem Approx.mono {δ δ' x y : ℝ} (h : Approx δ x y) (hy : 0 ≤ y) (hd : δ ≤ δ') : Approx δ' x y := by
  have := mul_le_mul_of_nonneg_right hd hy
  exact ⟨by linarith [h.1], by linarith [h.2]⟩

theorem Approx.rne {δ : ℝ} {x : ℚ} {y : ℝ} (h : Approx δ x y) (hy : 0 ≤ y) (hx : 0 ≤ x) (hd : 1 / 2 ^ 52 ≤ δ)
    (hd1 : δ ≤ 1) : Approx (2 * δ) (Chalamet.rne x : ℚ) y := by
  obtain ⟨a, b⟩ := rne_err hx
  have a' : (x : ℝ) - x / 2 ^ 53 ≤ (Chalamet.rne x : ℚ) := by exact_mod_cast a
  have b' : ((Chalamet.rne x : ℚ) : ℝ) ≤ x + x / 2 ^ 53 := by exact_mod_cast b
  obtain ⟨c, d⟩ := h
  have h2 : (x : ℝ) ≤ 2 * y := by nlinarith
  have h3 : (x : ℝ) / 2 ^ 53 ≤ δ * y := by
    have : (x : ℝ) / 2 ^ 53 ≤ 1 / 2 ^ 52 * y := by
      rw [div_le_iff₀ (by positivity)]
      norm_num
      linarith
    exact this.trans (mul_le_mul_of_nonneg_right hd hy)
  exact ⟨by linarith, by linarith⟩

theorem Approx.div {δ a a' b b' : ℝ} (ha : Approx δ a' a) (hb : Approx δ b' b) (ha0 : 0 ≤ a) (hb0 : 0 < b)
    (hd0 : 0 ≤ δ) (hd : δ ≤ 1 / 4) : Approx (4 * δ) (a' / b') (a / b) := by
  obtain ⟨a1, a2⟩ := ha
  obtain ⟨b1, b2⟩ := hb
  have hb' : 0 < b' := by nlinarith
  have hq : 0 ≤ a / b := div_nonneg ha0 hb0.le
  have e : a / b * b = a := div_mul_cancel₀ a hb0.ne'
  set q := a / b
  constructor
  · rw [le_div_iff₀ hb']
    have : 0 ≤ q * b := by positivity
    by_cases h4 : 4 * δ ≤ 1
    · have h5 : (q - 4 * δ * q) * b' ≤ (q - 4 * δ * q) * (b + δ * b) :=
        mul_le_mul_of_nonneg_left b2 (by nlinarith)
      nlinarith [mul_nonneg hd0 this, mul_nonneg (mul_nonneg hd0 hd0) this]
    · exact absurd hd (by linarith)
  · rw [div_le_iff₀ hb']
    have : 0 ≤ q * b := by positivity
    have h5 : (q + 4 * δ * q) * (b - δ * b) ≤ (q + 4 * δ * q) * b' :=
      mul_le_mul_of_nonneg_left b1 (by positivity)
    nlinarith [mul_nonneg hd0 this, mul_nonneg (mul_nonneg hd0 hd0) this]

theorem Approx.mul_left {δ x y c : ℝ} (h : Approx δ x y) (hc : 0 ≤ c) : Approx δ (c * x) (c * y) := by
  have a := mul_le_mul_of_nonneg_left h.1 hc
  have b := mul_le_mul_of_nonneg_left h.2 hc
  exact ⟨by linarith, by linarith⟩

theorem Approx.add_const {δ x y c : ℝ} (h : Approx δ x y) (hc : 0 ≤ c) (hd : 0 ≤ δ) :
    Approx δ (c + x) (c + y) := by
  have := mul_nonneg hd hc
  exact ⟨by linarith [h.1], by linarith [h.2]⟩

theorem Approx.max_const {δ x y c : ℝ} (h : Approx δ x y) (hc : 0 ≤ c) (hd : 0 ≤ δ) :
    Approx δ (max c x) (max c y) := by
  constructor
  · rcases le_total c y with e | e
    · rw [max_eq_right e]; exact h.1.trans (le_max_right _ _)
    · rw [max_eq_left e]
      have := mul_nonneg hd hc
      exact (by linarith : c - δ * c ≤ c).trans (le_max_left _ _)
  · have h1 : c ≤ max c y := le_max_left _ _
    have h2 : y ≤ max c y := le_max_right _ _
    have h3 := mul_le_mul_of_nonneg_left h1 hd
    have h4 := mul_le_mul_of_nonneg_left h2 hd
    have := mul_nonneg hd hc
    exact max_le (by linarith) (by linarith [h.2])

/-- Assumption on `libm::log`: on arguments from 1 on its relative error is at most `2^-50`. The `musl` routine
`libm` is a port of documents an error below one unit in the last place, i.e. `2^-52`. -/
def LogAccurate (log : ℚ → ℚ) : Prop :=
  ∀ x : ℚ, 1 ≤ x → |(log x : ℝ) - Real.log x| ≤ Real.log x / 2 ^ 50

/-- The assumption can be met: every real number is close to a rational one. -/
theorem exists_logAccurate : ∃ log : ℚ → ℚ, LogAccurate log := by
  have : ∀ x : ℚ, ∃ l : ℚ, 1 ≤ x → |(l : ℝ) - Real.log x| ≤ Real.log x / 2 ^ 50 := by
    intro x
    by_cases hx : 1 < x
    · have hp : 0 < Real.log x := Real.log_pos (by exact_mod_cast hx)
      obtain ⟨l, h1, h2⟩ := exists_rat_btwn (show Real.log x < Real.log x + Real.log x / 2 ^ 50 by
        have : 0 < Real.log x / 2 ^ 50 := by positivity
        linarith)
      refine ⟨l, fun _ => ?_⟩
      rw [abs_le]
      have : 0 < Real.log x / 2 ^ 50 := by positivity
      constructor <;> linarith
    · refine ⟨0, fun h => ?_⟩
      have : x = 1 := le_antisymm (not_lt.mp hx) h
      subst this
      simp
  choose log h using this
  exact ⟨log, h⟩

theorem LogAccurate.approx {log : ℚ → ℚ} (h : LogAccurate log) {x : ℚ} (hx : 1 ≤ x) :
    Approx (1 / 2 ^ 50) (log x) (Real.log x) := by
  obtain ⟨l, r⟩ := abs_le.1 (h x hx)
  constructor
  · linarith
  · linarith

theorem LogAccurate.nonneg {log : ℚ → ℚ} (h : LogAccurate log) {x : ℚ} (hx : 1 ≤ x) : 0 ≤ log x := by
  have h1 := (h.approx hx).1
  have h2 : 0 ≤ Real.log x := Real.log_nonneg (by exact_mod_cast hx)
  have : (0 : ℝ) ≤ log x := by
    have : 1 / 2 ^ 50 * Real.log x ≤ Real.log x := by
      have : (1 : ℝ) / 2 ^ 50 ≤ 1 := by norm_num
      nlinarith
    linarith
  exact_mod_cast this

theorem log_333 : (1.2 : ℝ) < Real.log 3.33 := by
  have h : Real.exp 6 < (3.33 : ℝ) ^ 5 := by
    have e : Real.exp 6 = Real.exp 1 ^ 6 := by rw [← Real.exp_nat_mul]; norm_num
    rw [e]
    calc Real.exp 1 ^ 6 < 2.7182818286 ^ 6 :=
          pow_lt_pow_left₀ Real.exp_one_lt_d9 (Real.exp_pos 1).le (by norm_num)
      _ < 3.33 ^ 5 := by norm_num
  have h2 : (6 : ℝ) < Real.log ((3.33 : ℝ) ^ 5) := by
    rw [Real.lt_log_iff_exp_lt (by norm_num)]; exact h
  rw [Real.log_pow] at h2
  push_cast at h2
  linarith

theorem log_nat_le {n : Nat} (h1 : 1 ≤ n) (h : n < 2 ^ 32) : Real.log n ≤ 32 * Real.log 2 := by
  have : Real.log n ≤ Real.log ((2 : ℝ) ^ 32) := by
    apply Real.log_le_log (by exact_mod_cast h1)
    have : (n : ℝ) < 2 ^ 32 := by exact_mod_cast h
    linarith
  rw [Real.log_pow] at this
  exact_mod_cast this

/-- The published formula for the logarithm of the segment length (before truncation). -/
noncomputable def idealExp (n : Nat) : ℝ := Real.log n / Real.log 3.33 + 2.25

/-- The published formula for the number of cells (before rounding). -/
noncomputable def idealCap (n : Nat) : ℝ := n * max 1.125 (0.875 + 0.25 * Real.log 1000000 / Real.log n)

theorem log_333_approx {log : ℚ → ℚ} (h : LogAccurate log) :
    Approx (1 / 2 ^ 48) (log (rne (333 / 100))) (Real.log 3.33) := by
  have hb := rne_err (x := 333 / 100) (by norm_num)
  have hge : (1 : ℚ) ≤ rne (333 / 100) := by
    have := hb.1; norm_num at this ⊢; linarith
  have ha := h.approx hge
  set r := rne (333 / 100)
  have hr1 : (3.33 : ℝ) * (1 - 1 / 2 ^ 53) ≤ r := by
    have : ((333 / 100 - 333 / 100 / 2 ^ 53 : ℚ) : ℝ) ≤ r := by exact_mod_cast hb.1
    push_cast at this; norm_num at this ⊢; linarith
  have hr2 : (r : ℝ) ≤ 3.33 * (1 + 1 / 2 ^ 53) := by
    have : (r : ℝ) ≤ ((333 / 100 + 333 / 100 / 2 ^ 53 : ℚ) : ℝ) := by exact_mod_cast hb.2
    push_cast at this; norm_num at this ⊢; linarith
  have hL := log_333
  have hrpos : (0 : ℝ) < r := by linarith [show (0 : ℝ) < 3.33 * (1 - 1 / 2 ^ 53) by norm_num]
  -- |log r - log 3.33| ≤ 2^-52
  have hu : Real.log r ≤ Real.log 3.33 + 1 / 2 ^ 53 := by
    have e : Real.log r - Real.log 3.33 = Real.log (r / 3.33) := (Real.log_div hrpos.ne' (by norm_num)).symm
    have := Real.log_le_sub_one_of_pos (show (0 : ℝ) < r / 3.33 by positivity)
    have e2 : (r : ℝ) / 3.33 ≤ 1 + 1 / 2 ^ 53 := by
      rw [div_le_iff₀ (by norm_num)]; linarith
    linarith
  have hl : Real.log 3.33 - 1 / 2 ^ 52 ≤ Real.log r := by
    have e : Real.log 3.33 - Real.log r = Real.log (3.33 / r) := (Real.log_div (by norm_num) hrpos.ne').symm
    have := Real.log_le_sub_one_of_pos (show (0 : ℝ) < 3.33 / r by positivity)
    have e2 : (3.33 : ℝ) / r ≤ 1 + 1 / 2 ^ 52 := by
      rw [div_le_iff₀ hrpos]
      norm_num at hr1 ⊢
      linarith
    linarith
  obtain ⟨a1, a2⟩ := ha
  constructor
  · norm_num at *; linarith
  · norm_num at *; linarith

/-- Accuracy of the exponent of the segment length. -/
theorem bfSegExp_accurate {log : ℚ → ℚ} (h : LogAccurate log) {n : Nat} (h1 : 1 ≤ n) (h32 : n < 2 ^ 32) :
    (bfSegExp log n : ℝ) ≤ idealExp n + 1 / 2 ^ 36 ∧ idealExp n < bfSegExp log n + 1 + 1 / 2 ^ 36 := by
  have hn : f64OfNat n = n := f64OfNat_eq (by omega)
  have hn1 : (1 : ℚ) ≤ (n : ℚ) := by exact_mod_cast h1
  have hlog0 : 0 ≤ Real.log n := Real.log_nonneg (by exact_mod_cast h1)
  have hL := log_333
  have ha : Approx (1 / 2 ^ 48) (log (n : ℚ)) (Real.log n) := by
    have := h.approx hn1
    push_cast at this
    exact this.mono hlog0 (by norm_num)
  have hb := log_333_approx h
  have hq : 0 ≤ Real.log n / Real.log 3.33 := div_nonneg hlog0 (by linarith)
  have hq19 : Real.log n / Real.log 3.33 ≤ 18.5 := by
    rw [div_le_iff₀ (by linarith)]
    have := log_nat_le h1 h32
    have := Real.log_two_lt_d9
    linarith
  have hqd := ha.div hb hlog0 (by linarith) (by norm_num) (by norm_num)
  have hb0 : 0 ≤ log (rne (333 / 100)) := by
    have hb1 := hb.1
    have : (0 : ℝ) ≤ log (rne (333 / 100)) := by
      have : 1 / 2 ^ 48 * Real.log 3.33 ≤ Real.log 3.33 := by
        have : (1 : ℝ) / 2 ^ 48 ≤ 1 := by norm_num
        nlinarith
      linarith
    exact_mod_cast this
  have hx0 : 0 ≤ log (n : ℚ) / log (rne (333 / 100)) := div_nonneg (h.nonneg hn1) hb0
  have hr1 : Approx (2 * (4 * (1 / 2 ^ 48))) (f64Div (log (n : ℚ)) (log (rne (333 / 100))) : ℚ)
      (Real.log n / Real.log 3.33) := by
    unfold f64Div
    refine Approx.rne ?_ hq hx0 (by norm_num) (by norm_num)
    push_cast
    exact hqd
  have hd0 : 0 ≤ f64Div (log (n : ℚ)) (log (rne (333 / 100))) := rne_nonneg hx0
  have hr2 : Approx (2 * (2 * (4 * (1 / 2 ^ 48))))
      (f64Add (f64Div (log (n : ℚ)) (log (rne (333 / 100)))) (9 / 4) : ℚ) (idealExp n) := by
    unfold f64Add idealExp
    refine Approx.rne ?_ (by positivity) (by positivity) (by norm_num) (by norm_num)
    have := hr1.add_const (c := 2.25) (by norm_num) (by norm_num)
    push_cast
    rw [add_comm, add_comm (Real.log _ / _)]
    norm_num at this ⊢
    exact this
  have hI0 : 0 ≤ idealExp n := by unfold idealExp; positivity
  have hI : idealExp n ≤ 20.75 := by unfold idealExp; linarith
  unfold bfSegExp f64Floor
  rw [hn]
  set v := f64Add (f64Div (log (n : ℚ)) (log (rne (333 / 100)))) (9 / 4) with hv
  obtain ⟨v1, v2⟩ := hr2
  have hv0 : 0 ≤ v := rne_nonneg (by positivity)
  have hvr : (v : ℝ) ≤ 21 := by norm_num at hI v1 v2 ⊢; linarith
  have hv21 : v ≤ 21 := by exact_mod_cast hvr
  have hfl : f64ToUint 32 ((⌊v⌋ : ℤ) : ℚ) = ⌊v⌋₊ := by
    unfold f64ToUint
    have e : ((⌊v⌋ : ℤ) : ℚ) = ((⌊v⌋₊ : ℕ) : ℚ) := by
      exact_mod_cast (Int.natCast_floor_eq_floor hv0).symm
    rw [e, Nat.floor_natCast]
    apply min_eq_left
    have : ⌊v⌋₊ ≤ 21 := Nat.floor_le_of_le (by exact_mod_cast hv21)
    omega
  rw [hfl]
  have f1 : ((⌊v⌋₊ : ℕ) : ℝ) ≤ v := by exact_mod_cast Nat.floor_le hv0
  have f2 : (v : ℝ) < (⌊v⌋₊ : ℕ) + 1 := by exact_mod_cast Nat.lt_floor_add_one v
  constructor
  · norm_num at v1 v2 ⊢; linarith
  · norm_num at v1 v2 ⊢; linarith

/-- Accuracy of the number of cells asked for. -/
theorem bfCap0_accurate {log : ℚ → ℚ} (h : LogAccurate log) {n : Nat} (h2 : 2 ≤ n) (h32 : n < 2 ^ 32)
    (hc : idealCap n ≤ 2 ^ 32 - 2) : |(bfCap0 log n : ℝ) - idealCap n| ≤ 0.501 := by
  have hn : f64OfNat n = n := f64OfNat_eq (by omega)
  have hM : f64OfNat 1000000 = 1000000 := f64OfNat_eq (by norm_num)
  have hn1 : (1 : ℚ) ≤ (n : ℚ) := by exact_mod_cast (by omega : 1 ≤ n)
  have hlogp : 0 < Real.log n := Real.log_pos (by exact_mod_cast h2)
  have hMp : 0 ≤ Real.log 1000000 := Real.log_nonneg (by norm_num)
  have ha : Approx (1 / 2 ^ 50) (log (n : ℚ)) (Real.log n) := by
    have := h.approx hn1
    push_cast at this
    exact this
  have hm : Approx (1 / 2 ^ 50) (log 1000000) (Real.log 1000000) := by
    have := h.approx (x := 1000000) (by norm_num)
    push_cast at this
    exact this
  have hm0 : 0 ≤ log 1000000 := h.nonneg (by norm_num)
  have hm2 : Approx (2 * (1 / 2 ^ 50)) (f64Mul (1 / 4) (log 1000000) : ℚ) (0.25 * Real.log 1000000) := by
    unfold f64Mul
    refine Approx.rne ?_ (by positivity) (by positivity) (by norm_num) (by norm_num)
    have := hm.mul_left (c := 0.25) (by norm_num)
    push_cast
    norm_num at this ⊢
    exact this
  have hmm0 : 0 ≤ f64Mul (1 / 4) (log 1000000) := rne_nonneg (by positivity)
  have hd : Approx (2 * (4 * (2 * (1 / 2 ^ 50))))
      (f64Div (f64Mul (1 / 4) (log 1000000)) (log (n : ℚ)) : ℚ) (0.25 * Real.log 1000000 / Real.log n) := by
    unfold f64Div
    refine Approx.rne ?_ (by positivity) (div_nonneg hmm0 (h.nonneg hn1)) (by norm_num) (by norm_num)
    push_cast
    exact hm2.div (ha.mono hlogp.le (by norm_num)) (by positivity) hlogp (by norm_num) (by norm_num)
  have hdd0 : 0 ≤ f64Div (f64Mul (1 / 4) (log 1000000)) (log (n : ℚ)) :=
    rne_nonneg (div_nonneg hmm0 (h.nonneg hn1))
  have hs : Approx (2 * (2 * (4 * (2 * (1 / 2 ^ 50)))))
      (f64Add (7 / 8) (f64Div (f64Mul (1 / 4) (log 1000000)) (log (n : ℚ))) : ℚ)
      (0.875 + 0.25 * Real.log 1000000 / Real.log n) := by
    unfold f64Add
    refine Approx.rne ?_ (by positivity) (by positivity) (by norm_num) (by norm_num)
    have := hd.add_const (c := 0.875) (by norm_num) (by norm_num)
    push_cast
    norm_num at this ⊢
    exact this
  have hf : Approx (2 * (2 * (4 * (2 * (1 / 2 ^ 50))))) (bfSizeFactor log n : ℚ)
      (max 1.125 (0.875 + 0.25 * Real.log 1000000 / Real.log n)) := by
    unfold bfSizeFactor
    rw [hn, hM]
    have := hs.max_const (c := 1.125) (by norm_num) (by norm_num)
    push_cast
    rw [show ((9 : ℝ) / 8) = 1.125 by norm_num]
    exact this
  have hf0 : 0 ≤ bfSizeFactor log n := le_trans (by norm_num) (le_max_left _ _)
  have hp : Approx (2 * (2 * (2 * (4 * (2 * (1 / 2 ^ 50)))))) (f64Mul (n : ℚ) (bfSizeFactor log n) : ℚ)
      (idealCap n) := by
    unfold f64Mul idealCap
    refine Approx.rne ?_ (by positivity) (by positivity) (by norm_num) (by norm_num)
    push_cast
    exact hf.mul_left (by positivity)
  have hI0 : 0 ≤ idealCap n := by unfold idealCap; positivity
  unfold bfCap0
  rw [hn]
  set v := f64Mul (n : ℚ) (bfSizeFactor log n)
  obtain ⟨v1, v2⟩ := hp
  have hv0 : 0 ≤ v := rne_nonneg (by positivity)
  have e1 : (v : ℝ) ≤ idealCap n + 0.001 := by norm_num at hc v1 v2 ⊢; linarith
  have e2 : idealCap n - 0.001 ≤ v := by norm_num at hc v1 v2 ⊢; linarith
  have hfl : f64ToUint 32 (f64Round v) = ⌊v + 1 / 2⌋₊ := by
    unfold f64ToUint f64Round
    have e : ((⌊v + 1 / 2⌋ : ℤ) : ℚ) = ((⌊v + 1 / 2⌋₊ : ℕ) : ℚ) := by
      exact_mod_cast (Int.natCast_floor_eq_floor (by positivity)).symm
    rw [e, Nat.floor_natCast]
    apply min_eq_left
    have hv' : ((v + 1 / 2 : ℚ) : ℝ) < ((2 ^ 32 : ℕ) : ℝ) := by
      push_cast; norm_num at hc e1 ⊢; linarith
    have : ⌊v + 1 / 2⌋₊ < 2 ^ 32 := by
      rw [Nat.floor_lt (by positivity)]
      exact_mod_cast hv'
    omega
  rw [hfl]
  have hw : (0 : ℚ) ≤ v + 1 / 2 := by positivity
  have f1 : ((⌊v + 1 / 2⌋₊ : ℕ) : ℝ) ≤ v + 1 / 2 := by
    have := Nat.floor_le hw
    have : ((⌊v + 1 / 2⌋₊ : ℕ) : ℝ) ≤ ((v + 1 / 2 : ℚ) : ℝ) := by exact_mod_cast this
    push_cast at this
    exact this
  have f2 : (v : ℝ) + 1 / 2 < (⌊v + 1 / 2⌋₊ : ℕ) + 1 := by
    have := Nat.lt_floor_add_one (v + 1 / 2)
    have : ((v + 1 / 2 : ℚ) : ℝ) < (⌊v + 1 / 2⌋₊ : ℕ) + 1 := by exact_mod_cast this
    push_cast at this
    exact this
  rw [abs_le]
  constructor
  · norm_num at e1 e2 ⊢; linarith
  · norm_num at e1 e2 ⊢; linarith

end Chalamet
