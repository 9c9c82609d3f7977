import Verif.Props.Sizes
import Verif.Props.FilterLookups

/-!
# C89: the advertised space per key

The documentation of the filter types promises a number of bits per key: fewer than 10 for `Xor8`, 20 for `Xor16` and 40 for
`Xor32` (bff-modp/src/xor8.rs:13, xor16.rs:13, xor32.rs:13); fewer than 9.101, 18.202 and 36.404 for `Fuse8/16/32`
(bff-modp/src/fuse8.rs:14, fuse16.rs:14, fuse32.rs:14); and the documentation examples assert, for a million keys, fewer than
9.1, 18.1 and 36.2 bits for `BinaryFuse8/16/32` (bfuse8.rs:40, bfuse16.rs:40, bfuse32.rs:41). A filter with `w`-bit
fingerprints uses `w * len / n` bits for each of `n` keys, so a promise of `c` bits reads `w * len < c * n`.
-/

namespace Chalamet

/-- **C89 (Xor).** `w * len / n < 1.25 w` (10, 20 and 40 bits) holds for every filter built from more than 1600 keys and for
none built from at most 1400. -/
theorem C89_xor (w : Nat) (hw : 0 < w) (prof : Profile) (keys : List U64) (hl : keys.length < 2 ^ 32) (t : Nat) (f : Xor w)
    (hf : Xor.fromWithin w prof (xorC0 keys.length) keys t = .ok f) :
    (1600 < keys.length → 100 * (w * f.len) < 125 * (w * keys.length)) ∧
    (keys.length ≤ 1400 → 125 * (w * keys.length) < 100 * (w * f.len)) := by
  obtain ⟨-, h1, h2⟩ := C74_xor_len w prof keys hl t f hf
  constructor
  · intro h
    have : w * (100 * f.len) < w * (125 * keys.length) := Nat.mul_lt_mul_of_pos_left (by omega) hw
    linarith
  · intro h
    have : w * (125 * keys.length) < w * (100 * f.len) := Nat.mul_lt_mul_of_pos_left (by omega) hw
    linarith

/-- **C89 (Fuse).** The space is never more than `w / 0.879` bits per key, but it is exactly that (9.10125... bits for
`Fuse8`, 18.2025... for `Fuse16`, 36.4050... for `Fuse32`) whenever the number of keys is a multiple of 44829, so the
promised 9.101, 18.202 and 36.404 bits are exceeded. For a million keys, the size of the documentation example, the promise
holds. -/
theorem C89_fuse (w : Nat) (hw : 0 < w) (prof : Profile) (fp0 : Nat → BitVec w) (keys : List U64)
    (hl : keys.length < 2 ^ 32) (h90 : 90 ≤ keys.length) (f : Fuse w)
    (hf : Fuse.tryFrom w prof (fuseC0 keys.length) fp0 keys = .ok f) :
    879 * (w * f.len) ≤ 1000 * (w * keys.length) ∧
    (44829 ∣ keys.length → 879 * (w * f.len) = 1000 * (w * keys.length) ∧
      9101 * (w * keys.length) < 8000 * (w * f.len)) ∧
    (keys.length = 1000000 → 8000 * (w * f.len) < 9101 * (w * keys.length)) := by
  have h := (C74_fuse_len w prof fp0 keys hl).1 h90 f hf
  refine ⟨?_, ?_, ?_⟩
  · have : w * (879 * f.len) ≤ w * (1000 * keys.length) := Nat.mul_le_mul_left _ (by omega)
    linarith
  · rintro ⟨k, hk⟩
    have hlen : f.len = 51000 * k := by omega
    constructor
    · rw [hlen, hk]; ring
    · have : w * (9101 * keys.length) < w * (8000 * f.len) := Nat.mul_lt_mul_of_pos_left (by omega) hw
      linarith
  · intro hn
    have : w * (8000 * f.len) < w * (9101 * keys.length) := Nat.mul_lt_mul_of_pos_left (by omega) hw
    linarith

/-- The layout the code computes for a million keys does not depend on the rounding errors of the logarithm. -/
theorem million_sizes {log : ℚ → ℚ} (hlog : LogAccurate log) :
    ∃ lay, bfLayout 1000000 (bfSegExp log 1000000) (bfCap0 log 1000000) = .ok lay ∧ lay.arrayLen = 1130496 := by
  have hl3 := log_333
  have h1 : 57 * Real.log 3.33 ≤ 5 * Real.log 1000000 := by
    have : Real.log ((3.33 : ℝ) ^ 57) ≤ Real.log ((1000000 : ℝ) ^ 5) := Real.log_le_log (by norm_num) (by norm_num)
    rw [Real.log_pow, Real.log_pow] at this
    exact_mod_cast this
  have h2 : 5 * Real.log 1000000 ≤ 58 * Real.log 3.33 := by
    have : Real.log ((1000000 : ℝ) ^ 5) ≤ Real.log ((3.33 : ℝ) ^ 58) := Real.log_le_log (by norm_num) (by norm_num)
    rw [Real.log_pow, Real.log_pow] at this
    exact_mod_cast this
  have e13 : bfSegExp log 1000000 = 13 := by
    obtain ⟨a, b⟩ := bfSegExp_accurate hlog (n := 1000000) (by norm_num) (by norm_num)
    have q1 : 11.4 ≤ Real.log 1000000 / Real.log 3.33 := by
      rw [le_div_iff₀ (by linarith)]
      linarith
    have q2 : Real.log 1000000 / Real.log 3.33 ≤ 11.6 := by
      rw [div_le_iff₀ (by linarith)]
      linarith
    unfold idealExp at a b
    push_cast at a b
    have b' : (12 : ℝ) < bfSegExp log 1000000 := by norm_num at b q1; linarith
    have a' : (bfSegExp log 1000000 : ℝ) < 14 := by norm_num at a q2; linarith
    have b'' : 12 < bfSegExp log 1000000 := by exact_mod_cast b'
    have a'' : bfSegExp log 1000000 < 14 := by exact_mod_cast a'
    omega
  have hi : idealCap 1000000 = 1125000 := by rw [idealCap_large (by norm_num)]; norm_num
  have ec : bfCap0 log 1000000 = 1125000 := by
    have := bfCap0_accurate hlog (n := 1000000) (by norm_num) (by norm_num) (by rw [hi]; norm_num)
    rw [abs_le, hi] at this
    obtain ⟨a, b⟩ := this
    have a' : (1124999 : ℝ) < bfCap0 log 1000000 := by linarith
    have b' : (bfCap0 log 1000000 : ℝ) < 1125001 := by linarith
    have a'' : 1124999 < bfCap0 log 1000000 := by exact_mod_cast a'
    have b'' : bfCap0 log 1000000 < 1125001 := by exact_mod_cast b'
    omega
  rw [e13, ec]
  have hs : segmentLength 1000000 13 = 8192 := rfl
  unfold bfLayout
  simp only [hs]
  exact ⟨_, rfl, rfl⟩

/-- **C89 (binary fuse).** Every binary fuse filter built from a million keys has exactly 1130496 cells, so it meets the
bounds of the documentation examples (9.1, 18.1 and 36.2 bits per key). -/
theorem C89_binary_fuse_million (log : ℚ → ℚ) (hlog : LogAccurate log) (w : Nat) (hw : 0 < w) (prof : Profile)
    (fp0 : Nat → BitVec w) (keys : List U64) (hn : keys.length = 1000000) (f : BinaryFuse w)
    (hf : BinaryFuse.tryFrom w prof (bfSegExp log keys.length) (bfCap0 log keys.length) fp0 keys = .ok f) :
    f.len = 1130496 ∧ 160 * (w * f.len) < 181 * (w * keys.length) := by
  have hlen : f.len = 1130496 := by
    obtain ⟨lay, hlay, hal⟩ := million_sizes hlog
    rw [hn] at hf
    unfold BinaryFuse.tryFrom bfuseXFromImpl at hf
    split at hf
    · cases hf
    · rw [hn, hlay, Res.bind_ok] at hf
      obtain ⟨⟨stk, sd⟩, -, hf⟩ := Res.bind_eq_ok.1 hf
      obtain ⟨fp, ha, hf⟩ := Res.bind_eq_ok.1 hf
      cases hf
      have hl : fp.length = lay.arrayLen := by
        refine foldRes_inv_ok (fun _ fp => fp.length = lay.arrayLen) (by simp) ?_ ha
        intro _ e _ fp fp' _ hl hs
        rw [assignStepX_length hs, hl]
      unfold BinaryFuse.len
      rw [hl, hal]
  refine ⟨hlen, ?_⟩
  have : w * (160 * f.len) < w * (181 * keys.length) := Nat.mul_lt_mul_of_pos_left (by omega) hw
  linarith

/-- The same for every number of keys from two on: at least 9 bits per key (up to a rounding of half a cell) with 8-bit
fingerprints, i.e. `1.125 w` bits; the promised "about 9 bits" is a lower bound. -/
theorem C89_binary_fuse_at_least (log : ℚ → ℚ) (hlog : LogAccurate log) (w : Nat) (prof : Profile)
    (fp0 : Nat → BitVec w) (keys : List U64) (h2 : 2 ≤ keys.length) (hn : keys.length ≤ 3800000000) (f : BinaryFuse w)
    (hf : BinaryFuse.tryFrom w prof (bfSegExp log keys.length) (bfCap0 log keys.length) fp0 keys = .ok f) :
    9 * (w * keys.length) ≤ 8 * (w * f.len) + 4 * w := by
  obtain ⟨-, h, -⟩ := C76_len log hlog w prof fp0 keys h2 hn f hf
  have : w * (9 * keys.length) ≤ w * (8 * f.len + 4) := Nat.mul_le_mul_left _ h
  linarith

/-! ## Non-vacuity -/

/-- C89 (Xor, at most 1400 keys): a filter of three keys that is built. -/
example : ∃ f, Xor.fromWithin 8 .debug (xorC0 3) [1#64, 2#64, 3#64] 1 = .ok f := by
  rw [xorC0_eq (by norm_num)]
  have h : ((Xor.fromWithin 8 .debug (123 * 3 / 100) [1#64, 2#64, 3#64] 1).bind fun f => .ok f.len) = .ok 33 := by
    decide +kernel
  obtain ⟨f, hf, _⟩ := Res.bind_eq_ok.1 h
  exact ⟨f, hf⟩

end Chalamet
