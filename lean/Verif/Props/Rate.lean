import Verif.Lemmas.Rate
import Verif.Props.Hash
import Verif.Model.Fuse
import Mathlib.Data.Fintype.Card
import Mathlib.Algebra.BigOperators.Fin

/-!
# C78: how many of all 64-bit keys a filter accepts

The filter is fixed and the keys vary: out of the `2^64` keys, how many does `contains` accept?
-/

namespace Chalamet
open Finset

/-! ## From keys to hashes -/

open scoped Classical in
/-- Over all keys, the hashes are all 64-bit words. -/
theorem card_keys (seed : U64) (P : U64 → Prop) :
    (univ.filter fun k : Fin (2 ^ 64) => P (mix (BitVec.ofNat 64 k) seed)).card =
      ((range (2 ^ 64)).filter fun n => P (BitVec.ofNat 64 n)).card := by
  have h1 : (univ.filter fun k : Fin (2 ^ 64) => P (mix (BitVec.ofNat 64 k) seed)).card =
      (univ.filter fun k : Fin (2 ^ 64) => P (BitVec.ofNat 64 k)).card := by
    have hinj : Function.Injective fun k : Fin (2 ^ 64) =>
        (⟨(mix (BitVec.ofNat 64 k) seed).toNat, BitVec.isLt _⟩ : Fin (2 ^ 64)) := by
      intro a b h
      have h' := BitVec.eq_of_toNat_eq (Fin.mk.inj h)
      have h2 := (C32_mix_bijective seed).1 h'
      apply Fin.ext
      have h3 := congrArg BitVec.toNat h2
      rw [BitVec.toNat_ofNat, BitVec.toNat_ofNat, Nat.mod_eq_of_lt a.isLt, Nat.mod_eq_of_lt b.isLt] at h3
      exact h3
    have hsurj := (Finite.injective_iff_bijective.1 hinj).2
    rw [← card_image_of_injective _ hinj]
    apply congrArg card
    ext k
    simp only [mem_image, mem_filter, mem_univ, true_and]
    constructor
    · rintro ⟨a, ha, rfl⟩
      simpa using ha
    · intro hk
      obtain ⟨a, rfl⟩ := hsurj k
      exact ⟨a, by simpa using hk, rfl⟩
  rw [h1, card_filter, card_filter, ← Fin.sum_univ_eq_sum_range (fun n => if P (BitVec.ofNat 64 n) then 1 else 0)]

theorem comb_lt {v lo : Nat} (hv : v < 2 ^ 32) (hlo : lo < 2 ^ 32) : v * 2 ^ 32 + lo < 2 ^ 64 := by omega

theorem comb_div18 (v lo : Nat) : (v * 2 ^ 32 + lo) / 2 ^ 18 = v * 2 ^ 14 + lo / 2 ^ 18 := by omega

theorem comb_mod (v lo : Nat) : (v * 2 ^ 32 + lo) % 2 ^ 64 % 2 ^ 32 = lo % 2 ^ 32 := by omega

/-- The low `w` bits of the fingerprint of `v * 2^32 + lo`. -/
theorem fingerprint_low {w v lo : Nat} (hw : w ≤ 32) (hv : v < 2 ^ 32) (hlo : lo < 2 ^ 32) :
    ((fingerprint (BitVec.ofNat 64 (v * 2 ^ 32 + lo))).setWidth w).toNat =
      (lo % 2 ^ w) ^^^ (v % 2 ^ w) := by
  have hN : v * 2 ^ 32 + lo < 2 ^ 64 := by omega
  have hd : (v * 2 ^ 32 + lo) / 2 ^ 32 = v := by omega
  have hm : (v * 2 ^ 32 + lo) % 2 ^ 32 = lo := by omega
  unfold fingerprint
  rw [BitVec.toNat_setWidth, BitVec.toNat_xor, BitVec.toNat_ushiftRight, BitVec.toNat_ofNat,
    Nat.mod_eq_of_lt hN, Nat.shiftRight_eq_div_pow, hd, Nat.xor_mod_two_pow]
  congr 1
  conv_rhs => rw [← hm]
  rw [Nat.mod_mod_of_dvd _ (Nat.pow_dvd_pow 2 hw)]

/-! ## Binary fuse filters -/

/-- With segments of at most `2^14` cells, the slots of `v * 2^32 + lo` depend on `v` only through the first. -/
theorem slots_of_first {g : Geom} {len s k : Nat} (hg : g.WF len s k) (hs : s ≤ 14) {v v' lo : Nat}
    (hv : v < 2 ^ 32) (hv' : v' < 2 ^ 32) (hlo : lo < 2 ^ 32)
    (h : ((v * 2 ^ 32 + lo) * g.segmentCountLength.toNat) / 2 ^ 64 =
      ((v' * 2 ^ 32 + lo) * g.segmentCountLength.toNat) / 2 ^ 64) :
    hashOfHash (BitVec.ofNat 64 (v * 2 ^ 32 + lo)) g = hashOfHash (BitVec.ofNat 64 (v' * 2 ^ 32 + lo)) g := by
  have hN := comb_lt hv hlo
  have hN' := comb_lt hv' hlo
  have low : ∀ (a : U32) (n : Nat), (a &&& g.segmentLengthMask).toNat = a.toNat % 2 ^ s := by
    intro a n
    rw [BitVec.toNat_and, hg.mask, Nat.and_two_pow_sub_one_eq_mod]
  have e2 : ∀ v < 2 ^ 32, ((BitVec.ofNat 64 (v * 2 ^ 32 + lo)).setWidth 32 &&& g.segmentLengthMask) =
      (BitVec.ofNat 32 lo) &&& g.segmentLengthMask := by
    intro v hv
    congr 1
    apply BitVec.eq_of_toNat_eq
    rw [BitVec.toNat_setWidth, BitVec.toNat_ofNat, BitVec.toNat_ofNat, comb_mod]
  have e1 : ∀ v < 2 ^ 32, ((BitVec.ofNat 64 (v * 2 ^ 32 + lo) >>> 18).setWidth 32 &&& g.segmentLengthMask) =
      (BitVec.ofNat 32 (lo / 2 ^ 18)) &&& g.segmentLengthMask := by
    intro v hv
    apply BitVec.eq_of_toNat_eq
    rw [low _ 0, low _ 0, BitVec.toNat_setWidth, BitVec.toNat_ushiftRight, BitVec.toNat_ofNat,
      BitVec.toNat_ofNat, Nat.shiftRight_eq_div_pow, Nat.mod_eq_of_lt (comb_lt hv hlo),
      Nat.mod_mod_of_dvd _ (Nat.pow_dvd_pow 2 (show s ≤ 32 by omega)),
      Nat.mod_mod_of_dvd _ (Nat.pow_dvd_pow 2 (show s ≤ 32 by omega)),
      comb_div18]
    obtain ⟨d, hd⟩ := Nat.pow_dvd_pow 2 hs
    rw [hd, show v * (2 ^ s * d) + lo / 2 ^ 18 = lo / 2 ^ 18 + 2 ^ s * (v * d) by ring, Nat.add_mul_mod_self_left]
  unfold hashOfHash
  rw [e1 v hv, e1 v' hv', e2 v hv, e2 v' hv', BitVec.toNat_ofNat, BitVec.toNat_ofNat, Nat.mod_eq_of_lt hN,
    Nat.mod_eq_of_lt hN', h]

open scoped Classical in
/-- **C78 (BinaryFuse8/16/32).** Any filter whose segments have at most `2^14` cells, whatever its seed and
contents, accepts the fraction `2^-w` of all `2^64` keys, up to an error of (number of cells) `/ 2^32`. -/
theorem C78_binary_fuse (w : Nat) (hw : w ≤ 32) (size segExp cap0 : Nat) (lay : Layout)
    (hlay : bfLayout size segExp cap0 = .ok lay) (hL : lay.geom.segmentLength.toNat ≤ 2 ^ 14)
    (f : BinaryFuse w) (hg : f.geom = lay.geom) (hlen : f.len = lay.arrayLen) :
    (univ.filter fun k : Fin (2 ^ 64) => f.contains (BitVec.ofNat 64 k) = .ok true).card ≤
      2 ^ (64 - w) + f.len * 2 ^ 32 ∧
    2 ^ (64 - w) ≤
      (univ.filter fun k : Fin (2 ^ 64) => f.contains (BitVec.ofNat 64 k) = .ok true).card +
        f.len * 2 ^ 32 := by
  obtain ⟨s, hs18, hwf⟩ := bfLayout_wf hlay
  have hs : s ≤ 14 := by
    rw [hwf.sl] at hL
    exact (Nat.pow_le_pow_iff_right (by omega)).1 hL
  obtain ⟨P, hP⟩ : ∃ P : U64 → Prop, P = fun hash => (do
    let (h0, h1, h2) := hashOfHash hash f.geom
    let f0 ← rd f.fingerprints h0.toNat
    let f1 ← rd f.fingerprints h1.toNat
    let f2 ← rd f.fingerprints h2.toNat
    Res.ok (decide ((fingerprint hash).setWidth w ^^^ (f0 ^^^ f1 ^^^ f2) = 0#w))) = .ok true := ⟨_, rfl⟩
  have hcard := card_keys f.seed P
  have hset : (univ.filter fun k : Fin (2 ^ 64) => f.contains (BitVec.ofNat 64 k) = .ok true).card =
      (univ.filter fun k : Fin (2 ^ 64) => P (mix (BitVec.ofNat 64 k) f.seed)).card := by
    apply congrArg card
    ext k
    simp only [mem_filter, mem_univ, true_and, hP]
    exact Iff.rfl
  rw [hset, hcard,
    show (2 : Nat) ^ 64 = 2 ^ 32 * 2 ^ 32 from by norm_num, card_filter_mul]
  -- one residue modulo `2^32`
  have hone : ∀ lo ∈ range (2 ^ 32),
      ((range (2 ^ 32)).filter fun v => P (BitVec.ofNat 64 (v * 2 ^ 32 + lo))).card ≤
        2 ^ (32 - w) + f.len ∧
      2 ^ (32 - w) ≤
        ((range (2 ^ 32)).filter fun v => P (BitVec.ofNat 64 (v * 2 ^ 32 + lo))).card + f.len := by
    intro lo hlo
    rw [mem_range] at hlo
    have hmono : Monotone fun v => ((v * 2 ^ 32 + lo) * f.geom.segmentCountLength.toNat) / 2 ^ 64 := by
      intro a b hab
      apply Nat.div_le_div_right
      apply Nat.mul_le_mul_right
      omega
    have hsplit : 2 ^ (32 - w) * 2 ^ w = 2 ^ 32 := by rw [← Nat.pow_add, Nat.sub_add_cancel hw]
    have h := group_count (X := 2 ^ w) (Nat.two_pow_pos w) hmono
      (pass := fun v => P (BitVec.ofNat 64 (v * 2 ^ 32 + lo))) (2 ^ (32 - w)) (by
        intro h hh c
        have hlt : ∀ x < 2 ^ w, h * 2 ^ w + x < 2 ^ 32 := by
          intro x hx
          calc h * 2 ^ w + x < h * 2 ^ w + 2 ^ w := by omega
            _ = (h + 1) * 2 ^ w := by ring
            _ ≤ 2 ^ (32 - w) * 2 ^ w := Nat.mul_le_mul_right _ hh
            _ = 2 ^ 32 := hsplit
        by_cases hc : ∃ y < 2 ^ w, ((h * 2 ^ w + y) * 2 ^ 32 + lo) * f.geom.segmentCountLength.toNat / 2 ^ 64 = c
        · obtain ⟨y, hy, rfl⟩ := hc
          obtain ⟨l0, l1, l2, _⟩ := hashOfHash_lt hwf
            (BitVec.ofNat 64 ((h * 2 ^ w + y) * 2 ^ 32 + lo))
          rw [← hg, ← hlen] at l0 l1 l2
          unfold BinaryFuse.len at l0 l1 l2
          generalize hsl : hashOfHash (BitVec.ofNat 64 ((h * 2 ^ w + y) * 2 ^ 32 + lo)) f.geom = sl at l0 l1 l2
          obtain ⟨s0, s1, s2⟩ := sl
          refine ⟨(lo % 2 ^ w) ^^^ (f.fingerprints[s0.toNat] ^^^ f.fingerprints[s1.toNat] ^^^
            f.fingerprints[s2.toNat]).toNat, ?_, ?_⟩
          · exact Nat.xor_lt_two_pow (Nat.mod_lt _ (Nat.two_pow_pos w)) (BitVec.isLt _)
          · intro x hx hgx
            have e := slots_of_first (hg ▸ hwf) hs (hlt x hx) (hlt y hy) hlo hgx
            simp only [hP]
            rw [e, hsl]
            simp only
            rw [rd_ok l0, Res.bind_ok, rd_ok l1, Res.bind_ok, rd_ok l2, Res.bind_ok]
            rw [Res.ok.injEq, decide_eq_true_eq]
            generalize f.fingerprints[s0.toNat] ^^^ f.fingerprints[s1.toNat] ^^^ f.fingerprints[s2.toNat] = F
            have hfp := fingerprint_low hw (hlt x hx) hlo
            have hx' : (h * 2 ^ w + x) % 2 ^ w = x := by
              rw [Nat.mul_comm, Nat.mul_add_mod, Nat.mod_eq_of_lt hx]
            rw [hx'] at hfp
            generalize (fingerprint (BitVec.ofNat 64 ((h * 2 ^ w + x) * 2 ^ 32 + lo))).setWidth w = p at hfp
            constructor
            · intro hz
              have : p = F := by
                have := congrArg (· ^^^ F) hz
                simpa [BitVec.xor_assoc] using this
              rw [← this, hfp, ← Nat.xor_assoc, Nat.xor_self, Nat.zero_xor]
            · intro hx
              have : p = F := by
                apply BitVec.eq_of_toNat_eq
                rw [hfp, hx, ← Nat.xor_assoc, Nat.xor_self, Nat.zero_xor]
              rw [this, BitVec.xor_self]
        · exact ⟨0, Nat.two_pow_pos w, fun x hx hgx => absurd ⟨x, hx, hgx⟩ hc⟩)
    rw [hsplit] at h
    have htop : (2 ^ 32 * 2 ^ 32 + lo) * f.geom.segmentCountLength.toNat / 2 ^ 64 ≤
        (0 * 2 ^ 32 + lo) * f.geom.segmentCountLength.toNat / 2 ^ 64 + f.len := by
      rw [show (2 ^ 32 * 2 ^ 32 + lo) * f.geom.segmentCountLength.toNat =
        (0 * 2 ^ 32 + lo) * f.geom.segmentCountLength.toNat + 2 ^ 64 * f.geom.segmentCountLength.toNat by ring,
        Nat.add_mul_div_left _ _ (by norm_num)]
      have : f.geom.segmentCountLength.toNat ≤ f.len := by
        rw [hlen, hg, hwf.scl, ← hwf.len_eq]
        exact Nat.mul_le_mul_right _ (by omega)
      omega
    omega
  have hw64 : 2 ^ (64 - w) = 2 ^ 32 * 2 ^ (32 - w) := by
    rw [← Nat.pow_add, show 32 + (32 - w) = 64 - w by omega]
  constructor
  · calc _ ≤ ∑ lo ∈ range (2 ^ 32), (2 ^ (32 - w) + f.len) := sum_le_sum fun lo hlo => (hone lo hlo).1
      _ = 2 ^ 32 * (2 ^ (32 - w) + f.len) := by rw [sum_const, card_range, smul_eq_mul]
      _ = _ := by rw [hw64]; ring
  · have : ∑ lo ∈ range (2 ^ 32), 2 ^ (32 - w) ≤ ∑ lo ∈ range (2 ^ 32),
        (((range (2 ^ 32)).filter fun v => P (BitVec.ofNat 64 (v * 2 ^ 32 + lo))).card + f.len) :=
      sum_le_sum fun lo hlo => (hone lo hlo).2
    rw [sum_const, card_range, smul_eq_mul, sum_add_distrib, sum_const, card_range, smul_eq_mul] at this
    rw [hw64]
    linarith

/-! ## Xor filters -/

theorem reduce_mod {n : Nat} (x : U64) : reduce (x.setWidth 32) n = x.toNat % 2 ^ 32 * n / 2 ^ 32 := by
  unfold reduce
  rw [BitVec.toNat_setWidth]

theorem xor_parts {t u lo : Nat} (ht : t < 2 ^ 10) (hu : u < 2 ^ 22) (hlo : lo < 2 ^ 32) :
    (t * 2 ^ 22 + u) * 2 ^ 32 + lo < 2 ^ 64 ∧
    (2 ^ 21 * (((t * 2 ^ 22 + u) * 2 ^ 32 + lo) % 2 ^ 43) + ((t * 2 ^ 22 + u) * 2 ^ 32 + lo) / 2 ^ 43) % 2 ^ 32 =
      lo % 2 ^ 11 * 2 ^ 21 + (t * 2 ^ 11 + u / 2 ^ 11) ∧
    (2 ^ 42 * (((t * 2 ^ 22 + u) * 2 ^ 32 + lo) % 2 ^ 22) + ((t * 2 ^ 22 + u) * 2 ^ 32 + lo) / 2 ^ 22) % 2 ^ 32 =
      u * 2 ^ 10 + lo / 2 ^ 22 := by
  refine ⟨by omega, ?_, ?_⟩
  · have e1 : ((t * 2 ^ 22 + u) * 2 ^ 32 + lo) % 2 ^ 43 = u % 2 ^ 11 * 2 ^ 32 + lo := by omega
    have e2 : ((t * 2 ^ 22 + u) * 2 ^ 32 + lo) / 2 ^ 43 = t * 2 ^ 11 + u / 2 ^ 11 := by omega
    rw [e1, e2]
    omega
  · have e1 : ((t * 2 ^ 22 + u) * 2 ^ 32 + lo) % 2 ^ 22 = lo % 2 ^ 22 := by omega
    have e2 : ((t * 2 ^ 22 + u) * 2 ^ 32 + lo) / 2 ^ 22 = t * 2 ^ 32 + (u * 2 ^ 10 + lo / 2 ^ 22) := by omega
    rw [e1, e2]
    omega

theorem rotl64_parts (x : U64) (c : Nat) (h0 : 0 < c) (hc : c < 64) :
    (rotl64 x c).toNat = 2 ^ c * (x.toNat % 2 ^ (64 - c)) + x.toNat / 2 ^ (64 - c) := by
  unfold rotl64
  rw [Nat.mod_eq_of_lt hc, Nat.mod_eq_of_lt (show 64 - c < 64 by omega), BitVec.toNat_or, BitVec.toNat_shiftLeft,
    BitVec.toNat_ushiftRight, Nat.shiftLeft_eq, Nat.shiftRight_eq_div_pow]
  have hx := x.isLt
  generalize x.toNat = n at hx ⊢
  have hq : n / 2 ^ (64 - c) < 2 ^ c := by
    rw [Nat.div_lt_iff_lt_mul (Nat.two_pow_pos _), ← Nat.pow_add, Nat.add_sub_cancel' hc.le]
    exact hx
  have e : n * 2 ^ c % 2 ^ 64 = 2 ^ c * (n % 2 ^ (64 - c)) := by
    have : (2 : Nat) ^ 64 = 2 ^ c * 2 ^ (64 - c) := by rw [← Nat.pow_add, Nat.add_sub_cancel' hc.le]
    rw [this, Nat.mul_comm n]
    exact Nat.mul_mod_mul_left _ _ _
  rw [e, Nat.two_pow_add_eq_or_of_lt hq]

/-- The three positions for `(t * 2^22 + u) * 2^32 + lo`. -/
theorem xorH_parts {t u lo : Nat} (bl : Nat) (ht : t < 2 ^ 10) (hu : u < 2 ^ 22) (hlo : lo < 2 ^ 32) :
    xorH 0 bl (BitVec.ofNat 64 ((t * 2 ^ 22 + u) * 2 ^ 32 + lo)) = lo * bl / 2 ^ 32 ∧
    xorH 1 bl (BitVec.ofNat 64 ((t * 2 ^ 22 + u) * 2 ^ 32 + lo)) =
      (lo % 2 ^ 11 * 2 ^ 21 + (t * 2 ^ 11 + u / 2 ^ 11)) * bl / 2 ^ 32 ∧
    xorH 2 bl (BitVec.ofNat 64 ((t * 2 ^ 22 + u) * 2 ^ 32 + lo)) = (u * 2 ^ 10 + lo / 2 ^ 22) * bl / 2 ^ 32 := by
  obtain ⟨h, h1, h2⟩ := xor_parts ht hu hlo
  unfold xorH
  refine ⟨?_, ?_, ?_⟩
  · have e : rotl64 (BitVec.ofNat 64 ((t * 2 ^ 22 + u) * 2 ^ 32 + lo)) (0 * 21) =
        BitVec.ofNat 64 ((t * 2 ^ 22 + u) * 2 ^ 32 + lo) := by
      unfold rotl64
      simp
    rw [e, reduce_mod, BitVec.toNat_ofNat, comb_mod, Nat.mod_eq_of_lt hlo]
  · rw [reduce_mod, rotl64_parts _ _ (by norm_num) (by norm_num), BitVec.toNat_ofNat, Nat.mod_eq_of_lt h]
    exact congrArg (· * bl / 2 ^ 32) h1
  · rw [reduce_mod, rotl64_parts _ _ (by norm_num) (by norm_num), BitVec.toNat_ofNat, Nat.mod_eq_of_lt h]
    exact congrArg (· * bl / 2 ^ 32) h2

open scoped Classical in
/-- **C78 (Xor8).** Any Xor filter with fingerprints of at most 11 bits, whatever its seed and contents, accepts
the fraction `2^-w` of all `2^64` keys, up to an error of (cells per block) `/ 2^22`. -/
theorem C78_xor (w : Nat) (hw : w ≤ 11) (f : Xor w) (hbl : 0 < f.blockLength)
    (hlen : f.len = 3 * f.blockLength) :
    (univ.filter fun k : Fin (2 ^ 64) => f.contains (BitVec.ofNat 64 k) = .ok true).card ≤
      2 ^ (64 - w) + f.blockLength * 2 ^ 42 ∧
    2 ^ (64 - w) ≤
      (univ.filter fun k : Fin (2 ^ 64) => f.contains (BitVec.ofNat 64 k) = .ok true).card +
        f.blockLength * 2 ^ 42 := by
  obtain ⟨P, hP⟩ : ∃ P : U64 → Prop, P = fun hash => (do
    let a ← rd f.fingerprints (xorH 0 f.blockLength hash)
    let b ← rd f.fingerprints (xorH 1 f.blockLength hash + f.blockLength)
    let c ← rd f.fingerprints (xorH 2 f.blockLength hash + 2 * f.blockLength)
    Res.ok (decide ((fingerprint hash).setWidth w = a ^^^ b ^^^ c))) = .ok true := ⟨_, rfl⟩
  have hcard := card_keys f.seed P
  have hset : (univ.filter fun k : Fin (2 ^ 64) => f.contains (BitVec.ofNat 64 k) = .ok true).card =
      (univ.filter fun k : Fin (2 ^ 64) => P (mix (BitVec.ofNat 64 k) f.seed)).card := by
    apply congrArg card
    ext k
    simp only [mem_filter, mem_univ, true_and, hP]
    exact Iff.rfl
  rw [hset, hcard, show (2 : Nat) ^ 64 = 2 ^ 32 * 2 ^ 32 from by norm_num, card_filter_mul]
  -- one choice of the other bits
  have hone : ∀ lo ∈ range (2 ^ 32), ∀ t ∈ range (2 ^ 10),
      ((range (2 ^ 22)).filter fun u => P (BitVec.ofNat 64 ((t * 2 ^ 22 + u) * 2 ^ 32 + lo))).card ≤
        2 ^ (22 - w) + f.blockLength ∧
      2 ^ (22 - w) ≤
        ((range (2 ^ 22)).filter fun u => P (BitVec.ofNat 64 ((t * 2 ^ 22 + u) * 2 ^ 32 + lo))).card +
          f.blockLength := by
    intro lo hlo t ht
    rw [mem_range] at hlo ht
    have hmono : Monotone fun u => (u * 2 ^ 10 + lo / 2 ^ 22) * f.blockLength / 2 ^ 32 := by
      intro a b hab
      apply Nat.div_le_div_right
      apply Nat.mul_le_mul_right
      omega
    have hsplit : 2 ^ (22 - w) * 2 ^ w = 2 ^ 22 := by
      rw [← Nat.pow_add, Nat.sub_add_cancel (by omega)]
    have h := group_count (X := 2 ^ w) (Nat.two_pow_pos w) hmono
      (pass := fun u => P (BitVec.ofNat 64 ((t * 2 ^ 22 + u) * 2 ^ 32 + lo))) (2 ^ (22 - w)) (by
        intro h hh c
        have hlt : ∀ x < 2 ^ w, h * 2 ^ w + x < 2 ^ 22 := by
          intro x hx
          calc h * 2 ^ w + x < h * 2 ^ w + 2 ^ w := by omega
            _ = (h + 1) * 2 ^ w := by ring
            _ ≤ 2 ^ (22 - w) * 2 ^ w := Nat.mul_le_mul_right _ hh
            _ = 2 ^ 22 := hsplit
        by_cases hc : ∃ y < 2 ^ w, ((h * 2 ^ w + y) * 2 ^ 10 + lo / 2 ^ 22) * f.blockLength / 2 ^ 32 = c
        · obtain ⟨y, hy, hyc⟩ := hc
          have hr : ∀ x < 2 ^ 32, x * f.blockLength / 2 ^ 32 < f.blockLength := by
            intro x hx
            rw [Nat.div_lt_iff_lt_mul (by norm_num), Nat.mul_comm]
            exact Nat.mul_lt_mul_of_pos_left hx hbl
          have hlen' : f.fingerprints.length = 3 * f.blockLength := hlen
          obtain ⟨d, hd⟩ := Nat.pow_dvd_pow 2 hw
          have hdiv : ∀ x < 2 ^ w, (h * 2 ^ w + x) / 2 ^ 11 = h / d := by
            intro x hx
            rw [hd, ← Nat.div_div_eq_div_mul, Nat.mul_comm h, Nat.mul_add_div (Nat.two_pow_pos w),
              Nat.div_eq_of_lt hx, Nat.add_zero]
          have b0 := hr lo hlo
          have b1 := hr (lo % 2 ^ 11 * 2 ^ 21 + (t * 2 ^ 11 + h / d)) (by
            have := hlt y hy
            have hq := hdiv y hy
            omega)
          have b2 := hr ((h * 2 ^ w + y) * 2 ^ 10 + lo / 2 ^ 22) (by
            have := hlt y hy
            omega)
          rw [hyc] at b2
          generalize hs0 : lo * f.blockLength / 2 ^ 32 = s0 at b0
          generalize hs1 : (lo % 2 ^ 11 * 2 ^ 21 + (t * 2 ^ 11 + h / d)) * f.blockLength / 2 ^ 32 = s1 at b1
          refine ⟨(lo % 2 ^ w) ^^^ (f.fingerprints[s0]'(by omega) ^^^
            f.fingerprints[s1 + f.blockLength]'(by omega) ^^^
            f.fingerprints[c + 2 * f.blockLength]'(by omega)).toNat, ?_, ?_⟩
          · exact Nat.xor_lt_two_pow (Nat.mod_lt _ (Nat.two_pow_pos w)) (BitVec.isLt _)
          · intro x hx hgx
            obtain ⟨e0, e1, e2⟩ := xorH_parts (t := t) f.blockLength ht (hlt x hx) hlo
            rw [hs0] at e0
            rw [hdiv x hx, hs1] at e1
            rw [hgx] at e2
            simp only [hP, e0, e1, e2]
            rw [rd_ok (by omega), Res.bind_ok, rd_ok (by omega), Res.bind_ok, rd_ok (by omega), Res.bind_ok]
            rw [Res.ok.injEq, decide_eq_true_eq]
            generalize f.fingerprints[s0]'(by omega) ^^^ f.fingerprints[s1 + f.blockLength]'(by omega) ^^^
              f.fingerprints[c + 2 * f.blockLength]'(by omega) = F
            have hfp := fingerprint_low (w := w) (v := t * 2 ^ 22 + (h * 2 ^ w + x)) (by omega)
              (by have := hlt x hx; omega) hlo
            have hx' : (t * 2 ^ 22 + (h * 2 ^ w + x)) % 2 ^ w = x := by
              rw [← hsplit, show t * (2 ^ (22 - w) * 2 ^ w) + (h * 2 ^ w + x) =
                2 ^ w * (t * 2 ^ (22 - w) + h) + x by ring, Nat.mul_add_mod, Nat.mod_eq_of_lt hx]
            rw [hx'] at hfp
            generalize (fingerprint (BitVec.ofNat 64 ((t * 2 ^ 22 + (h * 2 ^ w + x)) * 2 ^ 32 + lo))).setWidth w
              = p at hfp
            constructor
            · rintro rfl
              rw [hfp, ← Nat.xor_assoc, Nat.xor_self, Nat.zero_xor]
            · intro hx
              apply BitVec.eq_of_toNat_eq
              rw [hfp, hx, ← Nat.xor_assoc, Nat.xor_self, Nat.zero_xor]
        · exact ⟨0, Nat.two_pow_pos w, fun x hx hgx => absurd ⟨x, hx, hgx⟩ hc⟩)
    rw [hsplit] at h
    have htop : (2 ^ 22 * 2 ^ 10 + lo / 2 ^ 22) * f.blockLength / 2 ^ 32 =
        (0 * 2 ^ 10 + lo / 2 ^ 22) * f.blockLength / 2 ^ 32 + f.blockLength := by
      rw [show (2 ^ 22 * 2 ^ 10 + lo / 2 ^ 22) * f.blockLength =
        (0 * 2 ^ 10 + lo / 2 ^ 22) * f.blockLength + 2 ^ 32 * f.blockLength by ring,
        Nat.add_mul_div_left _ _ (by norm_num)]
    omega
  have hw64 : 2 ^ (64 - w) = 2 ^ 32 * (2 ^ 10 * 2 ^ (22 - w)) := by
    rw [← Nat.pow_add, ← Nat.pow_add, show 32 + (10 + (22 - w)) = 64 - w by omega]
  have hlo : ∀ lo, ((range (2 ^ 32)).filter fun v => P (BitVec.ofNat 64 (v * 2 ^ 32 + lo))).card =
      ∑ t ∈ range (2 ^ 10), ((range (2 ^ 22)).filter fun u =>
        P (BitVec.ofNat 64 ((t * 2 ^ 22 + u) * 2 ^ 32 + lo))).card := by
    intro lo
    rw [← card_filter_mul' (2 ^ 10) (2 ^ 22) fun v => P (BitVec.ofNat 64 (v * 2 ^ 32 + lo)),
      show (2 : Nat) ^ 10 * 2 ^ 22 = 2 ^ 32 from by norm_num]
  simp only [hlo]
  constructor
  · calc _ ≤ ∑ lo ∈ range (2 ^ 32), ∑ t ∈ range (2 ^ 10), (2 ^ (22 - w) + f.blockLength) :=
          sum_le_sum fun lo hlo => sum_le_sum fun t ht => (hone lo hlo t ht).1
      _ = 2 ^ 32 * (2 ^ 10 * (2 ^ (22 - w) + f.blockLength)) := by
          rw [sum_const, card_range, smul_eq_mul, sum_const, card_range, smul_eq_mul]
      _ = _ := by rw [hw64]; ring
  · have : ∑ lo ∈ range (2 ^ 32), ∑ t ∈ range (2 ^ 10), 2 ^ (22 - w) ≤ ∑ lo ∈ range (2 ^ 32),
        ∑ t ∈ range (2 ^ 10), (((range (2 ^ 22)).filter fun u =>
          P (BitVec.ofNat 64 ((t * 2 ^ 22 + u) * 2 ^ 32 + lo))).card + f.blockLength) :=
      sum_le_sum fun lo hlo => sum_le_sum fun t ht => (hone lo hlo t ht).2
    simp only [sum_const, card_range, smul_eq_mul, sum_add_distrib] at this
    rw [hw64]
    linarith

/-- Non-vacuity: a 1000-key layout has short segments, so any `BinaryFuse8` of that size accepts between
`2^56 - 1280 * 2^32` and `2^56 + 1280 * 2^32` keys: a rate of `1/256` within `0.0000003`. -/
example : ∃ lay, bfLayout 1000 7 1270 = .ok lay ∧ lay.geom.segmentLength.toNat ≤ 2 ^ 14 ∧
    ∃ f : BinaryFuse 8, f.geom = lay.geom ∧ f.len = lay.arrayLen ∧ f.len = 1280 := by
  refine ⟨_, rfl, by decide, ⟨5#64, _, List.replicate 1280 7#8⟩, rfl, ?_, ?_⟩
  · unfold BinaryFuse.len; rw [List.length_replicate]; rfl
  · unfold BinaryFuse.len; rw [List.length_replicate]

/-- Non-vacuity: an `Xor8` of 420 cells per block. -/
example : ∃ f : Xor 8, 0 < f.blockLength ∧ f.len = 3 * f.blockLength :=
  ⟨⟨5#64, 420, List.replicate 1260 7#8⟩, by norm_num, (List.length_replicate (n := 1260)).trans (by norm_num)⟩

end Chalamet
