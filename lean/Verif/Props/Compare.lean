import Verif.Props.Space
import Verif.Props.Published
import Verif.Props.Attainable

/-!
# C111: the documented comparison of the filter families

bff-modp/src/lib.rs:29-33 says that an `XorN` filter is larger than a `BinaryFuseN` and a `FuseN` filter, and that the latter two
are roughly equivalent in size.
-/

namespace Chalamet

open Spec

/-- A built binary fuse filter has the cells of its layout. -/
theorem binaryFuse_layout {w : Nat} {prof : Profile} {segExp cap0 : Nat} {fp0 : Nat → BitVec w} {keys : List U64} {f : BinaryFuse w}
    (hf : BinaryFuse.tryFrom w prof segExp cap0 fp0 keys = .ok f) :
    ∃ lay, bfLayout keys.length segExp cap0 = .ok lay ∧ f.len = lay.arrayLen ∧ f.geom = lay.geom := by
  unfold BinaryFuse.tryFrom bfuseXFromImpl at hf
  split at hf
  · cases hf
  · obtain ⟨lay, hlay, hf⟩ := Res.bind_eq_ok.1 hf
    obtain ⟨⟨stk, sd⟩, -, hf⟩ := Res.bind_eq_ok.1 hf
    obtain ⟨fp, ha, hf⟩ := Res.bind_eq_ok.1 hf
    cases hf
    have hl : fp.length = lay.arrayLen := by
      refine foldRes_inv_ok (fun _ fp => fp.length = lay.arrayLen) (by simp) ?_ ha
      intro _ e _ fp fp' _ hl hs
      rw [assignStepX_length hs, hl]
    exact ⟨lay, hlay, by unfold BinaryFuse.len; exact hl, rfl⟩

theorem log_le_of_pow {n k j : Nat} (hn : 1 ≤ n) (h : n ^ k ≤ 10 ^ j) :
    (k : ℝ) * Real.log n ≤ j * Real.log 10 := by
  have h1 : Real.log ((n : ℝ) ^ k) ≤ Real.log ((10 : ℝ) ^ j) :=
    Real.log_le_log (pow_pos (by exact_mod_cast hn) _) (by exact_mod_cast h)
  rwa [Real.log_pow, Real.log_pow] at h1

theorem log_million : Real.log 1000000 = 6 * Real.log 10 := by
  rw [show (1000000 : ℝ) = 10 ^ 6 by norm_num, Real.log_pow]
  norm_num

theorem log_ten_pos : 0 < Real.log 10 := Real.log_pos (by norm_num)

/-- `n^k ≤ 10^j` bounds the ideal capacity from below. -/
theorem idealCap_ge_of_pow {n k j : Nat} (hj : 0 < j) (hn : 2 ≤ n) (h : n ^ k ≤ 10 ^ j) :
    (n : ℝ) * (0.875 + 1.5 * k / j) ≤ idealCap n := by
  have hl := log_le_of_pow (by omega) h
  have hp : 0 < Real.log n := Real.log_pos (by exact_mod_cast hn)
  unfold idealCap
  apply mul_le_mul_of_nonneg_left _ (by positivity)
  refine le_trans ?_ (le_max_right _ _)
  have hj' : (0 : ℝ) < j := by exact_mod_cast hj
  have : (1.5 : ℝ) * k / j ≤ 0.25 * Real.log 1000000 / Real.log n := by
    rw [div_le_div_iff₀ hj' hp, log_million]
    nlinarith
  linarith

/-- `10^j ≤ n^k` bounds it from above. -/
theorem idealCap_le_of_pow {n k j : Nat} (hj : 0 < j) (hn : 2 ≤ n) (h : 10 ^ j ≤ n ^ k) :
    idealCap n ≤ (n : ℝ) * max (1.125 : ℝ) (0.875 + 1.5 * k / j : ℝ) := by
  have hl : (j : ℝ) * Real.log 10 ≤ k * Real.log n := by
    have h1 : Real.log ((10 : ℝ) ^ j) ≤ Real.log ((n : ℝ) ^ k) :=
      Real.log_le_log (by positivity) (by exact_mod_cast h)
    rwa [Real.log_pow, Real.log_pow] at h1
  have hp : 0 < Real.log n := Real.log_pos (by exact_mod_cast hn)
  unfold idealCap
  apply mul_le_mul_of_nonneg_left _ (by positivity)
  apply max_le_max le_rfl
  have hj' : (0 : ℝ) < j := by exact_mod_cast hj
  have : 0.25 * Real.log 1000000 / Real.log n ≤ (1.5 : ℝ) * k / j := by
    rw [div_le_div_iff₀ hp hj', log_million]
    nlinarith
  linarith

/-- A segment is a small part of a large filter. -/
theorem segment_small {n e : Nat} (he : (e : ℝ) ≤ idealExp n + 1 / 2 ^ 36) {c : ℝ} (hc : 0 < c) (hn : 1 ≤ n)
    (h : 1.56 - Real.log c ≤ 0.4223 * Real.log n) : (2 : ℝ) ^ e ≤ c * n := by
  have hn' : (0 : ℝ) < n := by exact_mod_cast hn
  have h2 := Real.log_two_lt_d9
  have h2' := Real.log_two_gt_d9
  have hL := log_333
  have hl0 : 0 ≤ Real.log n := Real.log_nonneg (by exact_mod_cast hn)
  have hq : Real.log n / Real.log 3.33 * Real.log 2 ≤ 0.5777 * Real.log n := by
    rw [div_mul_eq_mul_div, div_le_iff₀ (by linarith)]
    have : Real.log n * Real.log 2 ≤ Real.log n * (0.5777 * Real.log 3.33) :=
      mul_le_mul_of_nonneg_left (by linarith) hl0
    linarith
  rw [← Real.log_le_log_iff (by positivity) (by positivity), Real.log_pow, Real.log_mul hc.ne' hn'.ne']
  unfold idealExp at he
  have h36 : (1 : ℝ) / 2 ^ 36 ≤ 0.0001 := by norm_num
  have : (e : ℝ) * Real.log 2 ≤ (Real.log n / Real.log 3.33 + 2.25 + 0.0001) * Real.log 2 :=
    mul_le_mul_of_nonneg_right (by linarith) (by linarith)
  nlinarith

theorem log_ten_gt : (2.3 : ℝ) < Real.log 10 := by
  have h : Real.log ((2 : ℝ) ^ 83) ≤ Real.log ((10 : ℝ) ^ 25) := Real.log_le_log (by positivity) (by norm_num)
  rw [Real.log_pow, Real.log_pow] at h
  have h2' := Real.log_two_gt_d9
  push_cast at h
  linarith

namespace Spec

/-- Cells of an `Xor` filter of `n` keys (C74). -/
def xorCells (n : Nat) : Nat := (123 * n / 100 + 32) / 3 * 3

/-- Cells of a `Fuse` filter of `n` keys (C74). -/
def fuseCells (n : Nat) : Nat := 1000 * n / 879 / 102 * 102

end Spec

/-- **C111 (cells).** The sizes alone, for every number of keys: the layout of the binary fuse filter is computed, it has more cells
than the `Xor` filter from 100 to 15800 keys, fewer from 100000 keys on; it has 9% more cells than the `Fuse` filter from 90 to
10000 keys, and from a million keys on the two differ by at most 2% of the number of keys. -/
theorem C111_cells (log : ℚ → ℚ) (hlog : LogAccurate log) (n : Nat) (h2 : 2 ≤ n) (hn : n ≤ 3800000000) :
    ∃ lay, bfLayout n (bfSegExp log n) (bfCap0 log n) = .ok lay ∧
      (100 ≤ n → n ≤ 15800 → xorCells n < lay.arrayLen) ∧
      (100000 ≤ n → lay.arrayLen < xorCells n) ∧
      (90 ≤ n → n ≤ 10000 → 109 * fuseCells n < 100 * lay.arrayLen) ∧
      (1000000 ≤ n → 100 * lay.arrayLen ≤ 100 * fuseCells n + 2 * n ∧ 100 * fuseCells n ≤ 100 * lay.arrayLen + 2 * n) := by
  obtain ⟨lay, e, hlay, hsl, he, -, -, h98, -, hlo, hup⟩ := C76_layout log hlog n h2 hn
  have hn1 : 1 ≤ n := by omega
  have hn0 : (0 : ℝ) < n := by exact_mod_cast hn1
  have hx1 : 100 * xorCells n ≤ 123 * n + 3200 := by unfold xorCells; omega
  have hx2 : 123 * n + 2800 < 100 * xorCells n := by unfold xorCells; omega
  have hf1 : 879 * fuseCells n ≤ 1000 * n := by unfold fuseCells; omega
  have hf2 : 1000 * n < 879 * (fuseCells n + 103) := by unfold fuseCells; omega
  have hseg : ((lay.geom.segmentLength.toNat : ℕ) : ℝ) ≤ 2 ^ e := by
    rw [hsl]
    exact_mod_cast min_le_left _ _
  have ten := log_ten_gt
  refine ⟨lay, hlay, ?_, ?_, ?_, ?_⟩
  · intro h100 h158
    have hlow : ∀ k j : Nat, 0 < j → n ^ k ≤ 10 ^ j → (n : ℝ) * (0.875 + 1.5 * k / j) - 0.501 ≤ lay.arrayLen :=
      fun k j hj h => le_trans (by linarith [idealCap_ge_of_pow hj h2 h]) hlo
    have hpow : ∀ {a k : Nat}, n ≤ a → n ^ k ≤ a ^ k := fun h => Nat.pow_le_pow_left h _
    have hx1' : (100 : ℝ) * xorCells n ≤ 123 * n + 3200 := by exact_mod_cast hx1
    have goal : (xorCells n : ℝ) < lay.arrayLen := by
      rcases Nat.lt_or_ge n 15170 with c | c
      swap
      · have h1 := hlow 5 21 (by norm_num) ((hpow (a := 15800) (by omega)).trans (by norm_num))
        have h3 : (15170 : ℝ) ≤ n := by exact_mod_cast c
        push_cast at h1
        norm_num only at h1 ⊢
        linarith
      rcases Nat.lt_or_ge n 8800 with c | c
      swap
      · have h1 := hlow 11 46 (by norm_num) ((hpow (a := 15199) (by omega)).trans (by norm_num))
        have h3 : (8800 : ℝ) ≤ n := by exact_mod_cast c
        push_cast at h1
        norm_num only at h1 ⊢
        linarith
      rcases Nat.lt_or_ge n 1630 with c | c
      swap
      · have h1 := hlow 1 4 (by norm_num) ((hpow (a := 10000) (by omega)).trans (by norm_num))
        have h3 : (1630 : ℝ) ≤ n := by exact_mod_cast c
        push_cast at h1
        norm_num only at h1 ⊢
        linarith
      rcases Nat.lt_or_ge n 350 with c | c
      swap
      · have h1 := hlow 3 10 (by norm_num) ((hpow (a := 2154) (by omega)).trans (by norm_num))
        have h3 : (350 : ℝ) ≤ n := by exact_mod_cast c
        push_cast at h1
        norm_num only at h1 ⊢
        linarith
      rcases Nat.lt_or_ge n 160 with c | c
      swap
      · have h1 := hlow 3 8 (by norm_num) ((hpow (a := 464) (by omega)).trans (by norm_num))
        have h3 : (160 : ℝ) ≤ n := by exact_mod_cast c
        push_cast at h1
        norm_num only at h1 ⊢
        linarith
      rcases Nat.lt_or_ge n 114 with c | c
      swap
      · have h1 := hlow 3 7 (by norm_num) ((hpow (a := 215) (by omega)).trans (by norm_num))
        have h3 : (114 : ℝ) ≤ n := by exact_mod_cast c
        push_cast at h1
        norm_num only at h1 ⊢
        linarith
      have h1 := hlow 5 11 (by norm_num) ((hpow (a := 158) (by omega)).trans (by norm_num))
      have h3 : (100 : ℝ) ≤ n := by exact_mod_cast h100
      push_cast at h1
      norm_num only at h1 ⊢
      linarith
    exact_mod_cast goal
  · intro h5
    have hcap := idealCap_le_of_pow (n := n) (k := 1) (j := 5) (by norm_num) h2 (by rw [pow_one]; exact h5)
    have hlogn : 5 * Real.log 10 ≤ Real.log n := by
      have : Real.log ((10 : ℝ) ^ 5) ≤ Real.log n := Real.log_le_log (by norm_num) (by norm_num; exact_mod_cast h5)
      rw [Real.log_pow] at this
      exact_mod_cast this
    have hs := segment_small (c := 0.05) he (by norm_num) hn1 (by
      have : -Real.log 0.05 ≤ 3.01 := by
        rw [← Real.log_inv, show ((0.05 : ℝ))⁻¹ = 2 * 10 by norm_num, Real.log_mul (by norm_num) (by norm_num)]
        have h10 : Real.log ((10 : ℝ) ^ 3) ≤ Real.log ((2 : ℝ) ^ 10) := Real.log_le_log (by norm_num) (by norm_num)
        rw [Real.log_pow, Real.log_pow] at h10
        have := Real.log_two_lt_d9
        push_cast at h10
        linarith
      linarith)
    have hx2' : (123 : ℝ) * n + 2800 < 100 * xorCells n := by exact_mod_cast hx2
    have hcap' : idealCap n ≤ 1.175 * n := by
      refine le_trans hcap (le_of_eq ?_)
      rw [max_eq_right (by norm_num)]
      norm_num
      ring
    have goal : (lay.arrayLen : ℝ) < xorCells n := by
      refine lt_of_le_of_lt hup (max_lt ?_ ?_)
      · linarith
      · linarith
    exact_mod_cast goal
  · intro h90 h4
    have h1 := idealCap_ge_of_pow (n := n) (k := 1) (j := 4) (by norm_num) h2 (by rw [pow_one]; exact h4)
    have hf1' : (879 : ℝ) * fuseCells n ≤ 1000 * n := by exact_mod_cast hf1
    have h3 : (90 : ℝ) ≤ n := by exact_mod_cast h90
    have goal : (109 : ℝ) * fuseCells n < 100 * lay.arrayLen := by
      push_cast at h1
      norm_num only at h1 hlo ⊢
      linarith
    exact_mod_cast goal
  · intro h6
    have hlogn : 6 * Real.log 10 ≤ Real.log n := by
      rw [← log_million]
      exact Real.log_le_log (by norm_num) (by exact_mod_cast h6)
    have hs := segment_small (c := 1 / 32) he (by norm_num) hn1 (by
      have : -Real.log (1 / 32) ≤ 3.466 := by
        rw [← Real.log_inv, show ((1 / 32 : ℝ))⁻¹ = 2 ^ 5 by norm_num, Real.log_pow]
        have := Real.log_two_lt_d9
        push_cast
        linarith
      linarith)
    have hf2' : (1000 : ℝ) * n < 879 * (fuseCells n + 103) := by exact_mod_cast hf2
    have h3 : (1000000 : ℝ) ≤ n := by exact_mod_cast h6
    rw [idealCap_large h6] at hup
    constructor
    · have goal : (100 : ℝ) * lay.arrayLen ≤ 100 * fuseCells n + 2 * n := by
        have : (lay.arrayLen : ℝ) ≤ fuseCells n + n / 50 := by
          refine le_trans hup (max_le ?_ ?_)
          · linarith
          · linarith
        linarith
      exact_mod_cast goal
    · omega

/-- **C111 (built filters).** The same for filters that were built from equally many keys: from 100 to 15800 keys the `Xor` filter is
the smaller one, against the documentation; from 100000 keys on it is the larger one. It always is larger than the `Fuse` filter. -/
theorem C111_filters (log : ℚ → ℚ) (hlog : LogAccurate log) (w : Nat) (prof : Profile) (n : Nat) (hn : n ≤ 3800000000)
    (keys : List U64) (hl : keys.length = n) (t : Nat) (xf : Xor w) (hx : Xor.fromWithin w prof (xorC0 n) keys t = .ok xf)
    (keys' : List U64) (hl' : keys'.length = n) :
    (∀ fp0 bf, BinaryFuse.tryFrom w prof (bfSegExp log n) (bfCap0 log n) fp0 keys' = .ok bf →
      (100 ≤ n → n ≤ 15800 → xf.len < bf.len) ∧ (100000 ≤ n → bf.len < xf.len)) ∧
    (∀ fp0 ff, Fuse.tryFrom w prof (fuseC0 n) fp0 keys' = .ok ff → ff.len < xf.len) := by
  rw [← hl] at hx
  have hxl : xf.len = xorCells n := by
    rw [← hl]
    exact (C74_xor_len w prof keys (by omega) t xf hx).1
  clear hx hl keys
  subst hl'
  constructor
  · intro fp0 bf hb
    obtain ⟨lay, hlay, hlen, -⟩ := binaryFuse_layout hb
    rw [hxl, hlen]
    rcases Nat.lt_or_ge keys'.length 2 with h2 | h2
    · exact ⟨fun h => by omega, fun h => by omega⟩
    · obtain ⟨lay', hlay', h1, h3, -⟩ := C111_cells log hlog keys'.length h2 hn
      rw [hlay] at hlay'
      cases hlay'
      exact ⟨h1, h3⟩
  · intro fp0 ff hff
    rw [hxl]
    obtain ⟨h90, h1, h0⟩ := C74_fuse_len w prof fp0 keys' (by omega)
    rcases Nat.eq_zero_or_pos keys'.length with h | h
    · obtain ⟨f, hf, hl, -⟩ := h0 (List.length_eq_zero_iff.1 h)
      rw [hf] at hff
      cases hff
      rw [hl]
      unfold xorCells
      omega
    · rcases Nat.lt_or_ge keys'.length 90 with h' | h'
      · rw [h1 h h'] at hff
        cases hff
      · rw [h90 h' ff hff]
        unfold xorCells
        omega

/-- **C111 (fuse and binary fuse).** Filters built from equally many keys: up to 10000 keys the binary fuse filter is at least 9%
larger than the `Fuse` filter; from a million keys on they differ by at most 2% of the number of keys. -/
theorem C111_fuse_binary_fuse (log : ℚ → ℚ) (hlog : LogAccurate log) (w : Nat) (prof : Profile) (n : Nat) (h90 : 90 ≤ n)
    (hn : n ≤ 3800000000) (keys keys' : List U64) (hl : keys.length = n) (hl' : keys'.length = n) (fp0 fp0' : Nat → BitVec w)
    (bf : BinaryFuse w) (ff : Fuse w) (hb : BinaryFuse.tryFrom w prof (bfSegExp log n) (bfCap0 log n) fp0 keys = .ok bf)
    (hf : Fuse.tryFrom w prof (fuseC0 n) fp0' keys' = .ok ff) :
    (n ≤ 10000 → 109 * ff.len < 100 * bf.len) ∧
    (1000000 ≤ n → 100 * bf.len ≤ 100 * ff.len + 2 * n ∧ 100 * ff.len ≤ 100 * bf.len + 2 * n) := by
  have hfl : ff.len = fuseCells n := by
    rw [← hl'] at hf h90 ⊢
    exact (C74_fuse_len w prof fp0' keys' (by omega)).1 h90 ff hf
  obtain ⟨lay, hlay, hlen, -⟩ := binaryFuse_layout hb
  obtain ⟨lay', hlay', -, -, h1, h3⟩ := C111_cells log hlog n (by omega) hn
  rw [hl, hlay'] at hlay
  cases hlay
  rw [hfl, hlen]
  exact ⟨h1 h90, h3⟩

/-! ## Non-vacuity -/

/-- Hypotheses of `C111_filters`: for every number of keys up to 2.5 million there are keys from which the filters are built. -/
example (log : ℚ → ℚ) (hlog : LogAccurate log) (n : Nat) (hn : n ≤ 2500000) : ∃ keys keys' : List U64, keys.length = n ∧
    keys'.length = n ∧ ∀ (w : Nat) (prof : Profile) (fp0 : Nat → BitVec w),
      (∃ xf, Xor.fromWithin w prof (xorC0 n) keys 1 = .ok xf) ∧
      ∃ bf, BinaryFuse.tryFrom w prof (bfSegExp log n) (bfCap0 log n) fp0 keys' = .ok bf := by
  obtain ⟨keys, hl, -, hx⟩ := C91_xor n hn
  obtain ⟨keys', hl', -, hb⟩ := C91_binary_fuse_sized log hlog n (by omega)
  exact ⟨keys, keys', hl, hl', fun w prof fp0 => ⟨hx w prof, (hb w prof fp0).imp fun _ h => h.1⟩⟩

/-- Hypotheses of `C111_fuse_binary_fuse`, for 9000 and for two million keys. -/
example (log : ℚ → ℚ) (hlog : LogAccurate log) (n : Nat) (hn : n = 9000 ∨ n = 2000000) : ∃ keys keys' : List U64,
    keys.length = n ∧ keys'.length = n ∧ ∀ (w : Nat) (prof : Profile) (fp0 : Nat → BitVec w),
      (∃ bf, BinaryFuse.tryFrom w prof (bfSegExp log n) (bfCap0 log n) fp0 keys = .ok bf) ∧
      ∃ ff, Fuse.tryFrom w prof (fuseC0 n) fp0 keys' = .ok ff := by
  obtain ⟨keys, hl, -, hb⟩ := C91_binary_fuse_sized log hlog n (by omega)
  obtain ⟨keys', hl', -, hf⟩ := (C91_fuse n (by omega) (by omega)).2 (by omega)
  exact ⟨keys, keys', hl, hl', fun w prof fp0 => ⟨(hb w prof fp0).imp fun _ h => h.1, (hf w prof fp0).imp fun _ h => h.1⟩⟩

end Chalamet
