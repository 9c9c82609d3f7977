import Verif.Props.Hash
import Verif.Model.Fuse

/-!
# C64: the cells consulted for a key are chosen independently

Every combination of cells (one per block / segment) is the combination of some key. So no cell is a
function of the other ones, and no cell is dead.
-/

namespace Chalamet

/-- Multiplicative range reduction of a `p + q`-bit number to `n ≤ 2^(p-1)`: for every target `a` the `p`
high bits can be chosen such that the `q` low bits do not matter. -/
theorem reduce_window {p q n a : Nat} (hn : 2 * n ≤ 2 ^ p) (ha : a < n) :
    ∃ t < 2 ^ p, ∀ low < 2 ^ q, (t * 2 ^ q + low) * n / 2 ^ (p + q) = a := by
  have hn0 : 0 < n := by omega
  have hp := Nat.two_pow_pos p
  have hq := Nat.two_pow_pos q
  obtain ⟨t, ht1, ht2⟩ : ∃ t, a * 2 ^ p ≤ t * n ∧ t * n < a * 2 ^ p + n := by
    refine ⟨(a * 2 ^ p + (n - 1)) / n, ?_, ?_⟩
    · have := Nat.div_add_mod (a * 2 ^ p + (n - 1)) n
      have h2 := Nat.mod_lt (a * 2 ^ p + (n - 1)) hn0
      rw [Nat.mul_comm] at this
      omega
    · have := Nat.div_add_mod (a * 2 ^ p + (n - 1)) n
      rw [Nat.mul_comm] at this
      omega
  refine ⟨t, ?_, ?_⟩
  · by_contra h
    push Not at h
    have h1 : 2 ^ p * n ≤ t * n := Nat.mul_le_mul_right n h
    have h2 : (a + 1) * 2 ^ p ≤ n * 2 ^ p := Nat.mul_le_mul_right _ ha
    rw [Nat.mul_comm (2 ^ p)] at h1
    rw [Nat.add_mul] at h2
    omega
  · intro low hlow
    have e : (t * 2 ^ q + low) * n = t * n * 2 ^ q + low * n := by ring
    have hln : low * n + n ≤ 2 ^ q * n := by
      have := Nat.mul_le_mul_right n hlow
      rw [Nat.succ_mul] at this
      exact this
    rw [Nat.pow_add]
    apply Nat.div_eq_of_lt_le
    · rw [e, ← Nat.mul_assoc]
      have := Nat.mul_le_mul_right (2 ^ q) ht1
      omega
    · rw [e]
      have h3 : (t * n + n) * 2 ^ q ≤ (a * 2 ^ p + 2 ^ p) * 2 ^ q := Nat.mul_le_mul_right _ (by omega)
      have h4 : (a + 1) * (2 ^ p * 2 ^ q) = (a * 2 ^ p + 2 ^ p) * 2 ^ q := by ring
      rw [Nat.add_mul (t * n), Nat.mul_comm n] at h3
      rw [h4]
      omega

/-- The 64-bit word in which the three rotation windows of the `Xor` and `Fuse` filters have the given high
21 bits. -/
def windows (t0 t1 t2 : BitVec 21) : U64 :=
  BitVec.ofNat 64 (t1.toNat / 2 ^ 10 + t0.toNat * 2 ^ 11 + t2.toNat * 2 ^ 33 + t1.toNat % 2 ^ 10 * 2 ^ 54)

theorem windows_toNat (t0 t1 t2 : BitVec 21) : (windows t0 t1 t2).toNat =
    t1.toNat / 2 ^ 10 + t0.toNat * 2 ^ 11 + t2.toNat * 2 ^ 33 + t1.toNat % 2 ^ 10 * 2 ^ 54 := by
  unfold windows
  rw [BitVec.toNat_ofNat]
  have h0 := t0.isLt
  have h1 := t1.isLt
  have h2 := t2.isLt
  omega

theorem rotl64_toNat (x : U64) {c : Nat} (h0 : 0 < c) (h : c < 64) :
    (rotl64 x c).toNat = x.toNat % 2 ^ (64 - c) * 2 ^ c + x.toNat / 2 ^ (64 - c) := by
  unfold rotl64
  rw [Nat.mod_eq_of_lt h, Nat.mod_eq_of_lt (show 64 - c < 64 by omega), BitVec.toNat_or,
    BitVec.toNat_shiftLeft, BitVec.toNat_ushiftRight, Nat.shiftLeft_eq, Nat.shiftRight_eq_div_pow]
  have e : 2 ^ 64 = 2 ^ (64 - c) * 2 ^ c := by rw [← Nat.pow_add]; congr 1; omega
  have hlt : x.toNat / 2 ^ (64 - c) < 2 ^ c := by
    rw [Nat.div_lt_iff_lt_mul (Nat.two_pow_pos _), Nat.mul_comm, ← e]
    exact x.isLt
  rw [e, Nat.mul_mod_mul_right, ← Nat.shiftLeft_eq, ← Nat.shiftLeft_add_eq_or_of_lt hlt]

theorem windows_0 (t0 t1 t2 : BitVec 21) :
    (rotl64 (windows t0 t1 t2) 0).extractLsb' 11 21 = t0 := by
  have e : ∀ x : U64, rotl64 x 0 = x := by intro x; simp [rotl64]
  rw [e]
  apply BitVec.eq_of_toNat_eq
  rw [BitVec.extractLsb'_toNat, Nat.shiftRight_eq_div_pow, windows_toNat]
  have h0 := t0.isLt
  have h1 := t1.isLt
  have h2 := t2.isLt
  generalize t0.toNat = a at *
  generalize t2.toNat = c at *
  obtain ⟨q, r, hq, hr, ht⟩ : ∃ q r, q < 2 ^ 11 ∧ r < 2 ^ 10 ∧ t1.toNat = q * 2 ^ 10 + r :=
    ⟨t1.toNat / 2 ^ 10, t1.toNat % 2 ^ 10, by omega, by omega, by omega⟩
  rw [ht, show (q * 2 ^ 10 + r) / 2 ^ 10 = q by omega, show (q * 2 ^ 10 + r) % 2 ^ 10 = r by omega]
  rw [show (q + a * 2 ^ 11 + c * 2 ^ 33 + r * 2 ^ 54) / 2 ^ 11 = a + c * 2 ^ 22 + r * 2 ^ 43 by omega]
  omega

theorem windows_1 (t0 t1 t2 : BitVec 21) :
    (rotl64 (windows t0 t1 t2) 21).extractLsb' 11 21 = t1 := by
  apply BitVec.eq_of_toNat_eq
  rw [BitVec.extractLsb'_toNat, Nat.shiftRight_eq_div_pow, rotl64_toNat _ (by omega) (by omega),
    windows_toNat]
  have h0 := t0.isLt
  have h1 := t1.isLt
  have h2 := t2.isLt
  generalize t0.toNat = a at *
  generalize t2.toNat = c at *
  obtain ⟨q, r, hq, hr, ht⟩ : ∃ q r, q < 2 ^ 11 ∧ r < 2 ^ 10 ∧ t1.toNat = q * 2 ^ 10 + r :=
    ⟨t1.toNat / 2 ^ 10, t1.toNat % 2 ^ 10, by omega, by omega, by omega⟩
  rw [ht, show (q * 2 ^ 10 + r) / 2 ^ 10 = q by omega, show (q * 2 ^ 10 + r) % 2 ^ 10 = r by omega]
  rw [show (q + a * 2 ^ 11 + c * 2 ^ 33 + r * 2 ^ 54) % 2 ^ (64 - 21) = q + a * 2 ^ 11 + c % 2 ^ 10 * 2 ^ 33 by omega,
    show (q + a * 2 ^ 11 + c * 2 ^ 33 + r * 2 ^ 54) / 2 ^ (64 - 21) = c / 2 ^ 10 + r * 2 ^ 11 by omega,
    show ((q + a * 2 ^ 11 + c % 2 ^ 10 * 2 ^ 33) * 2 ^ 21 + (c / 2 ^ 10 + r * 2 ^ 11)) / 2 ^ 11 =
      r + q * 2 ^ 10 + a * 2 ^ 21 + c % 2 ^ 10 * 2 ^ 43 by omega]
  omega

theorem windows_2 (t0 t1 t2 : BitVec 21) :
    (rotl64 (windows t0 t1 t2) 42).extractLsb' 11 21 = t2 := by
  apply BitVec.eq_of_toNat_eq
  rw [BitVec.extractLsb'_toNat, Nat.shiftRight_eq_div_pow, rotl64_toNat _ (by omega) (by omega),
    windows_toNat]
  have h0 := t0.isLt
  have h1 := t1.isLt
  have h2 := t2.isLt
  generalize t0.toNat = a at *
  generalize t2.toNat = c at *
  obtain ⟨q, r, hq, hr, ht⟩ : ∃ q r, q < 2 ^ 11 ∧ r < 2 ^ 10 ∧ t1.toNat = q * 2 ^ 10 + r :=
    ⟨t1.toNat / 2 ^ 10, t1.toNat % 2 ^ 10, by omega, by omega, by omega⟩
  rw [ht, show (q * 2 ^ 10 + r) / 2 ^ 10 = q by omega, show (q * 2 ^ 10 + r) % 2 ^ 10 = r by omega]
  rw [show (q + a * 2 ^ 11 + c * 2 ^ 33 + r * 2 ^ 54) % 2 ^ (64 - 42) = q + a % 2 ^ 11 * 2 ^ 11 by omega,
    show (q + a * 2 ^ 11 + c * 2 ^ 33 + r * 2 ^ 54) / 2 ^ (64 - 42) = a / 2 ^ 11 + c * 2 ^ 11 + r * 2 ^ 32 by omega,
    show ((q + a % 2 ^ 11 * 2 ^ 11) * 2 ^ 42 + (a / 2 ^ 11 + c * 2 ^ 11 + r * 2 ^ 32)) / 2 ^ 11 =
      c + r * 2 ^ 21 + q * 2 ^ 31 + a % 2 ^ 11 * 2 ^ 42 by omega]
  omega

theorem toNat_of_window {x : U64} {t : BitVec 21} (h : x.extractLsb' 11 21 = t) :
    ∃ low < 2 ^ 11, (x.setWidth 32 : U32).toNat = t.toNat * 2 ^ 11 + low := by
  refine ⟨x.toNat % 2 ^ 11, Nat.mod_lt _ (by norm_num), ?_⟩
  rw [← h]
  simp only [BitVec.toNat_setWidth, BitVec.extractLsb'_toNat, Nat.shiftRight_eq_div_pow]
  omega

theorem reduce_eq_of_window {x : U64} {n a t : Nat} (ht : t < 2 ^ 21)
    (h : ∀ low < 2 ^ 11, (t * 2 ^ 11 + low) * n / 2 ^ (21 + 11) = a)
    (hx : x.extractLsb' 11 21 = BitVec.ofNat 21 t) : reduce (x.setWidth 32) n = a := by
  obtain ⟨low, hl, e⟩ := toNat_of_window hx
  rw [BitVec.toNat_ofNat, Nat.mod_eq_of_lt ht] at e
  unfold reduce
  rw [e]
  exact h low hl

/-- **C64 (Xor8/16/32).** For blocks of at most `2^20` cells (about 2.5 million keys) and every seed, every
choice of one cell per block is the choice made for some key: there is a key whose membership verdict is,
for every content of the filter, whether the xor of exactly these three cells is a fixed value. -/
theorem C64_xor (w : Nat) (seed : U64) (bl a b c : Nat) (hbl : bl ≤ 2 ^ 20) (ha : a < bl) (hb : b < bl)
    (hc : c < bl) :
    ∃ (key : U64) (v : BitVec w), ∀ (cells : List (BitVec w)) (hlen : cells.length = 3 * bl),
      Xor.contains { seed := seed, blockLength := bl, fingerprints := cells } key =
        .ok (decide (v = cells[a] ^^^ cells[bl + b] ^^^ cells[2 * bl + c])) := by
  obtain ⟨t0, l0, h0⟩ := reduce_window (p := 21) (q := 11) (n := bl) (by omega) ha
  obtain ⟨t1, l1, h1⟩ := reduce_window (p := 21) (q := 11) (n := bl) (by omega) hb
  obtain ⟨t2, l2, h2⟩ := reduce_window (p := 21) (q := 11) (n := bl) (by omega) hc
  obtain ⟨key, hkey⟩ := (C32_mix_bijective seed).2
    (windows (BitVec.ofNat 21 t0) (BitVec.ofNat 21 t1) (BitVec.ofNat 21 t2))
  simp only at hkey
  refine ⟨key, (fingerprint (mix key seed)).setWidth w, fun cells hlen => ?_⟩
  unfold Xor.contains
  have e0 : xorH 0 bl (mix key seed) = a := by
    rw [hkey]; exact reduce_eq_of_window l0 h0 (windows_0 _ _ _)
  have e1 : xorH 1 bl (mix key seed) = b := by
    rw [hkey]; exact reduce_eq_of_window l1 h1 (windows_1 _ _ _)
  have e2 : xorH 2 bl (mix key seed) = c := by
    rw [hkey]; exact reduce_eq_of_window l2 h2 (windows_2 _ _ _)
  simp only [e0, e1, e2, Nat.add_comm b, Nat.add_comm c]
  rw [rd_ok (by omega), Res.bind_ok, rd_ok (by omega), Res.bind_ok, rd_ok (by omega), Res.bind_ok]

/-- **C64 (Fuse8/16/32).** For segments of at most `2^20` cells and every seed: every choice of a starting
segment, a cell in it and a cell in the next segment is the choice made for some key (the third cell, in the
segment after that, comes from a multiplicative hash of the same word). -/
theorem C64_fuse (w : Nat) (seed : U64) (L s a b : Nat) (hL : L ≤ 2 ^ 20) (hs : s < 100) (ha : a < L)
    (hb : b < L) :
    ∃ (key : U64) (v : BitVec w) (c : Nat) (hc : c < L), ∀ (cells : List (BitVec w))
      (hlen : cells.length = 102 * L),
      Fuse.contains { seed := seed, segmentLength := L, fingerprints := cells } key =
        .ok (decide (v = cells[s * L + a]'(by nlinarith) ^^^ cells[(s + 1) * L + b]'(by nlinarith) ^^^
          cells[(s + 2) * L + c]'(by nlinarith))) := by
  obtain ⟨t0, l0, h0⟩ := reduce_window (p := 21) (q := 11) (n := 100) (by norm_num) hs
  obtain ⟨t1, l1, h1⟩ := reduce_window (p := 21) (q := 11) (n := L) (by omega) ha
  obtain ⟨t2, l2, h2⟩ := reduce_window (p := 21) (q := 11) (n := L) (by omega) hb
  obtain ⟨key, hkey⟩ := (C32_mix_bijective seed).2
    (windows (BitVec.ofNat 21 t0) (BitVec.ofNat 21 t1) (BitVec.ofNat 21 t2))
  simp only at hkey
  have e0 : reduce ((mix key seed).setWidth 32) 100 = s := by
    have h := reduce_eq_of_window l0 h0 (windows_0 (BitVec.ofNat 21 t0) (BitVec.ofNat 21 t1)
      (BitVec.ofNat 21 t2))
    rw [hkey]
    have e : ∀ x : U64, rotl64 x 0 = x := by intro x; simp [rotl64]
    rwa [e] at h
  have e1 : reduce ((rotl64 (mix key seed) 21).setWidth 32) L = a := by
    rw [hkey]; exact reduce_eq_of_window l1 h1 (windows_1 _ _ _)
  have e2 : reduce ((rotl64 (mix key seed) 42).setWidth 32) L = b := by
    rw [hkey]; exact reduce_eq_of_window l2 h2 (windows_2 _ _ _)
  refine ⟨key, (fingerprint (mix key seed)).setWidth w,
    reduce (((0xbf58476d1ce4e5b9#64 * mix key seed) >>> 32).setWidth 32) L, ?_, fun cells hlen => ?_⟩
  · unfold reduce
    rw [Nat.div_lt_iff_lt_mul (by norm_num), Nat.mul_comm L]
    exact Nat.mul_lt_mul_of_pos_right (BitVec.isLt _) (by omega)
  · unfold Fuse.contains h012
    simp only [e0, e1, e2]
    rw [rd_ok, Res.bind_ok, rd_ok, Res.bind_ok, rd_ok, Res.bind_ok]

theorem lt_two_pow_64 {t d : Nat} (ht : t < 2 ^ 28) (hd : d < 2 ^ 36) : t * 2 ^ 36 + d < 2 ^ 64 := by
  omega

/-- **C64 (binary fuse geometry).** For filters of fewer than `2^27` cells of the sizes the constructors
compute: every choice of a first cell (before the last two segments), a cell in the segment after it and a
cell in the segment after that is the choice made for some 64-bit hash. -/
theorem C64_binary_fuse_hash (size segExp cap0 : Nat) (lay : Layout)
    (h : bfLayout size segExp cap0 = .ok lay) (hsmall : lay.arrayLen ≤ 2 ^ 27) (i j k : Nat)
    (hi : i < lay.segmentCount * lay.geom.segmentLength.toNat)
    (hj : j / lay.geom.segmentLength.toNat = i / lay.geom.segmentLength.toNat + 1)
    (hk : k / lay.geom.segmentLength.toNat = i / lay.geom.segmentLength.toNat + 2) :
    ∃ hash : U64, hashOfHash hash lay.geom =
      (BitVec.ofNat 32 i, BitVec.ofNat 32 j, BitVec.ofNat 32 k) := by
  obtain ⟨s, hs18, hg⟩ := bfLayout_wf h
  rw [hg.sl] at hi hj hk
  have hpos := Nat.two_pow_pos s
  have hs18' : 2 ^ s ≤ 2 ^ 18 := Nat.pow_le_pow_right (by omega) hs18
  have hl := hg.len_eq
  rw [Nat.add_mul] at hl
  obtain ⟨t, ht, hw⟩ := reduce_window (p := 28) (q := 36) (n := lay.segmentCount * 2 ^ s) (a := i)
    (by omega) hi
  have hjlt : j < lay.arrayLen := by
    rw [← hg.len_eq]
    apply (Nat.div_lt_iff_lt_mul hpos).1
    have := (Nat.div_lt_iff_lt_mul hpos).2 hi
    omega
  have hklt : k < lay.arrayLen := by
    rw [← hg.len_eq]
    apply (Nat.div_lt_iff_lt_mul hpos).1
    have := (Nat.div_lt_iff_lt_mul hpos).2 hi
    omega
  -- the 18-bit windows
  have hx1 : (i + 2 ^ s) ^^^ j < 2 ^ s := by
    rw [← Nat.div_eq_zero_iff_lt hpos, ← Nat.shiftRight_eq_div_pow, Nat.shiftRight_xor_distrib,
      Nat.shiftRight_eq_div_pow, Nat.shiftRight_eq_div_pow, hj, Nat.add_div_right _ hpos, Nat.xor_self]
  have hx2 : (i + 2 ^ s + 2 ^ s) ^^^ k < 2 ^ s := by
    rw [← Nat.div_eq_zero_iff_lt hpos, ← Nat.shiftRight_eq_div_pow, Nat.shiftRight_xor_distrib,
      Nat.shiftRight_eq_div_pow, Nat.shiftRight_eq_div_pow, hk, Nat.add_div_right _ hpos,
      Nat.add_div_right _ hpos, Nat.xor_self]
  generalize hd1 : (i + 2 ^ s) ^^^ j = d1 at hx1
  generalize hd2 : (i + 2 ^ s + 2 ^ s) ^^^ k = d2 at hx2
  have hlow : d1 * 2 ^ 18 + d2 < 2 ^ 36 := by omega
  refine ⟨BitVec.ofNat 64 (t * 2 ^ 36 + (d1 * 2 ^ 18 + d2)), ?_⟩
  have hn : (BitVec.ofNat 64 (t * 2 ^ 36 + (d1 * 2 ^ 18 + d2))).toNat = t * 2 ^ 36 + (d1 * 2 ^ 18 + d2) := by
    have hN : ∀ N < 2 ^ 64, (BitVec.ofNat 64 N).toNat = N := fun N h => by
      rw [BitVec.toNat_ofNat, Nat.mod_eq_of_lt h]
    exact hN _ (lt_two_pow_64 ht hlow)
  have hmask : ∀ x : U32, (x &&& lay.geom.segmentLengthMask).toNat = x.toNat % 2 ^ s := by
    intro x
    rw [BitVec.toNat_and, hg.mask, Nat.and_two_pow_sub_one_eq_mod]
  have hmod : ∀ y d, d < 2 ^ s → (y * 2 ^ 18 + d) % 2 ^ s = d := by
    intro y d hd
    obtain ⟨r, hr⟩ : ∃ r, 18 = s + r := ⟨18 - s, by omega⟩
    rw [hr, Nat.pow_add, show y * (2 ^ s * 2 ^ r) + d = d + 2 ^ s * (y * 2 ^ r) by ring,
      Nat.add_mul_mod_self_left, Nat.mod_eq_of_lt hd]
  have h0 : ((BitVec.ofNat 64 ((BitVec.ofNat 64 (t * 2 ^ 36 + (d1 * 2 ^ 18 + d2))).toNat *
      lay.geom.segmentCountLength.toNat / 2 ^ 64) : U64).setWidth 32 : U32) = BitVec.ofNat 32 i := by
    rw [hn, hg.scl, hw _ hlow]
    apply BitVec.eq_of_toNat_eq
    simp only [BitVec.toNat_setWidth, BitVec.toNat_ofNat]
    omega
  have h32 : ∀ x y, x < 2 ^ 32 → (BitVec.ofNat 32 x ^^^ y : U32).toNat = x ^^^ y.toNat := by
    intro x y hx
    rw [BitVec.toNat_xor, BitVec.toNat_ofNat, Nat.mod_eq_of_lt hx]
  have hsl : lay.geom.segmentLength = BitVec.ofNat 32 (2 ^ s) := by
    apply BitVec.eq_of_toNat_eq
    rw [hg.sl, BitVec.toNat_ofNat, Nat.mod_eq_of_lt (by omega)]
  unfold hashOfHash
  simp only [h0, Prod.mk.injEq, true_and]
  rw [hsl, ← BitVec.ofNat_add, ← BitVec.ofNat_add]
  constructor
  · apply BitVec.eq_of_toNat_eq
    rw [h32 _ _ (by omega), hmask, BitVec.toNat_ofNat, Nat.mod_eq_of_lt (show j < 2 ^ 32 by omega)]
    have e : ((BitVec.ofNat 64 (t * 2 ^ 36 + (d1 * 2 ^ 18 + d2)) >>> 18).setWidth 32 : U32).toNat % 2 ^ s =
        d1 := by
      rw [BitVec.toNat_setWidth, BitVec.toNat_ushiftRight, hn, Nat.shiftRight_eq_div_pow,
        Nat.mod_mod_of_dvd _ (Nat.pow_dvd_pow 2 (by omega)),
        show (t * 2 ^ 36 + (d1 * 2 ^ 18 + d2)) / 2 ^ 18 = t * 2 ^ 18 + d1 by omega]
      exact hmod t d1 hx1
    rw [e, ← hd1, ← Nat.xor_assoc, Nat.xor_self, Nat.zero_xor]
  · apply BitVec.eq_of_toNat_eq
    rw [h32 _ _ (by omega), hmask, BitVec.toNat_ofNat, Nat.mod_eq_of_lt (show k < 2 ^ 32 by omega)]
    have e : ((BitVec.ofNat 64 (t * 2 ^ 36 + (d1 * 2 ^ 18 + d2))).setWidth 32 : U32).toNat % 2 ^ s =
        d2 := by
      rw [BitVec.toNat_setWidth, hn, Nat.mod_mod_of_dvd _ (Nat.pow_dvd_pow 2 (by omega)),
        show t * 2 ^ 36 + (d1 * 2 ^ 18 + d2) = (t * 2 ^ 18 + d1) * 2 ^ 18 + d2 by ring]
      exact hmod _ d2 hx2
    rw [e, ← hd2, ← Nat.xor_assoc, Nat.xor_self, Nat.zero_xor]

/-- **C64 (BinaryFuse8/16/32).** Likewise for keys: for every seed there is a key whose membership verdict is,
for every content of the filter, whether the xor of exactly these three cells is a fixed value. -/
theorem C64_binary_fuse (w : Nat) (seed : U64) (size segExp cap0 : Nat) (lay : Layout)
    (h : bfLayout size segExp cap0 = .ok lay) (hsmall : lay.arrayLen ≤ 2 ^ 27) (i j k : Nat)
    (hi : i < lay.segmentCount * lay.geom.segmentLength.toNat)
    (hj : j / lay.geom.segmentLength.toNat = i / lay.geom.segmentLength.toNat + 1)
    (hk : k / lay.geom.segmentLength.toNat = i / lay.geom.segmentLength.toNat + 2) :
    i < lay.arrayLen ∧ j < lay.arrayLen ∧ k < lay.arrayLen ∧
    ∃ (key : U64) (v : BitVec w), ∀ (cells : List (BitVec w)) (hi : i < cells.length)
      (hj : j < cells.length) (hk : k < cells.length),
      BinaryFuse.contains { seed := seed, geom := lay.geom, fingerprints := cells } key =
        .ok (decide (v = cells[i] ^^^ cells[j] ^^^ cells[k])) := by
  obtain ⟨hash, hh⟩ := C64_binary_fuse_hash size segExp cap0 lay h hsmall i j k hi hj hk
  obtain ⟨s, hs18, hg⟩ := bfLayout_wf h
  obtain ⟨l0, l1, l2, _⟩ := hashOfHash_lt hg hash
  have hlt : i < lay.arrayLen ∧ j < lay.arrayLen ∧ k < lay.arrayLen := by
    rw [hg.sl] at hi hj hk
    have hpos := Nat.two_pow_pos s
    rw [← hg.len_eq]
    have := (Nat.div_lt_iff_lt_mul hpos).2 hi
    refine ⟨?_, ?_, ?_⟩ <;> apply (Nat.div_lt_iff_lt_mul hpos).1 <;> omega
  obtain ⟨key, hkey⟩ := (C32_mix_bijective seed).2 hash
  simp only at hkey
  refine ⟨hlt.1, hlt.2.1, hlt.2.2, key, (fingerprint hash).setWidth w, fun cells hi hj hk => ?_⟩
  have hm : ∀ x, x < lay.arrayLen → (BitVec.ofNat 32 x).toNat = x := by
    intro x hx
    rw [BitVec.toNat_ofNat, Nat.mod_eq_of_lt (by omega)]
  unfold BinaryFuse.contains
  simp only [hkey, hh, hm _ hlt.1, hm _ hlt.2.1, hm _ hlt.2.2]
  rw [rd_ok hi, Res.bind_ok, rd_ok hj, Res.bind_ok, rd_ok hk, Res.bind_ok]
  simp only [Res.ok.injEq, decide_eq_decide]
  exact BitVec.xor_eq_zero_iff

/-- Non-vacuity: a filter for 1000 keys. -/
example : ∃ lay, bfLayout 1000 7 1232 = .ok lay ∧ lay.arrayLen ≤ 2 ^ 27 ∧ 0 < lay.segmentCount ∧
    300 < lay.segmentCount * lay.geom.segmentLength.toNat ∧
    (500 : Nat) / lay.geom.segmentLength.toNat = 300 / lay.geom.segmentLength.toNat + 1 ∧
    (513 : Nat) / lay.geom.segmentLength.toNat = 300 / lay.geom.segmentLength.toNat + 2 := by
  refine ⟨_, rfl, ?_⟩
  decide +kernel

end Chalamet
