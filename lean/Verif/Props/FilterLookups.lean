import Verif.Props.FilterDocs
import Verif.Props.Foreign
import Verif.Props.FalsePos

/-!
# C85: lookups in a filter that was loaded

Serde checks the type of every field and nothing else (C84), so a loaded filter can have any sizes. These theorems say, for
every document that loads, which lookups panic, and which filters are safe for every key.
-/

namespace Chalamet

/-- Three reads and a value. -/
theorem rd3 {w : Nat} {β : Type} (l : List (BitVec w)) (i j k : Nat) (g : BitVec w → BitVec w → BitVec w → β) :
    (rd l i >>= fun a => rd l j >>= fun b => rd l k >>= fun c => .ok (g a b c)) =
      if i < l.length ∧ j < l.length ∧ k < l.length then
        .ok (g (l.getD i 0#w) (l.getD j 0#w) (l.getD k 0#w)) else .panic := by
  by_cases hi : i < l.length
  · by_cases hj : j < l.length
    · by_cases hk : k < l.length
      · rw [if_pos ⟨hi, hj, hk⟩, rd_ok hi, Res.bind_ok, rd_ok hj, Res.bind_ok, rd_ok hk, Res.bind_ok, getD_lt hi,
          getD_lt hj, getD_lt hk]
      · rw [if_neg (fun h => hk h.2.2), rd_ok hi, Res.bind_ok, rd_ok hj, Res.bind_ok, rd_panic (by omega), Res.bind_panic]
    · rw [if_neg (fun h => hj h.2.1), rd_ok hi, Res.bind_ok, rd_panic (l := l) (i := j) (by omega), Res.bind_panic]
  · rw [if_neg (fun h => hi h.1), rd_panic (l := l) (i := i) (by omega), Res.bind_panic]

/-! ## Binary fuse filters -/

/-- `hash_of_hash` on any geometry. -/
theorem hashOfHashC_cases (prof : Profile) (h : U64) (g : Geom) :
    ((prof = .debug ∧ 2 ^ 32 ≤ h.toNat * g.segmentCountLength.toNat / 2 ^ 64 + 2 * g.segmentLength.toNat) →
      hashOfHashC prof h g = .panic) ∧
    (¬ (prof = .debug ∧ 2 ^ 32 ≤ h.toNat * g.segmentCountLength.toNat / 2 ^ 64 + 2 * g.segmentLength.toNat) →
      hashOfHashC prof h g = .ok (hashOfHash h g)) := by
  obtain ⟨e0, -, -⟩ := hashOfHash_nat h g
  have hlt := (hashOfHash h g).1.isLt
  constructor
  · rintro ⟨rfl, hc⟩
    unfold hashOfHashC
    have e : (BitVec.ofNat 64 (h.toNat * g.segmentCountLength.toNat / 2 ^ 64)).setWidth 32 = (hashOfHash h g).1 := rfl
    simp only [e]
    by_cases h1 : (hashOfHash h g).1.toNat + g.segmentLength.toNat < 2 ^ 32
    · rw [addC_ok h1, Res.bind_ok]
      have : addC .debug ((hashOfHash h g).1 + g.segmentLength) g.segmentLength = .panic := by
        unfold addC
        rw [if_neg]
        rw [BitVec.toNat_add, Nat.mod_eq_of_lt h1, e0]
        omega
      rw [this, Res.bind_panic]
    · have : addC .debug (hashOfHash h g).1 g.segmentLength = .panic := by
        unfold addC
        rw [if_neg h1]
      rw [this, Res.bind_panic]
  · intro hn
    cases prof with
    | release => rfl
    | debug =>
      apply hashOfHashC_of_le
      rw [e0]
      by_contra hc
      exact hn ⟨rfl, by omega⟩

/-- **C85 (binary fuse, one key).** In any filter, for any key: let `h` be the hash of the key and `s0`, `s1`, `s2` the three
positions computed from `h` and the fields. The lookup panics exactly when one of the positions is beyond the
fingerprints or, in debug builds, when `s0 + 2 * segment_length` does not fit 32 bits. Otherwise it answers whether the
low `w` bits of `h ^ (h >> 32)` are the exclusive or of the three fingerprints. -/
theorem C85_binary_fuse (w : Nat) (prof : Profile) (f : BinaryFuse w) (key : U64) :
    let h := mix key f.seed
    let s0 := h.toNat * f.geom.segmentCountLength.toNat / 2 ^ 64
    let s1 := (s0 + f.geom.segmentLength.toNat) % 2 ^ 32 ^^^
      (h.toNat / 2 ^ 18 % 2 ^ 32 &&& f.geom.segmentLengthMask.toNat)
    let s2 := (s0 + 2 * f.geom.segmentLength.toNat) % 2 ^ 32 ^^^
      (h.toNat % 2 ^ 32 &&& f.geom.segmentLengthMask.toNat)
    let bad := (prof = .debug ∧ 2 ^ 32 ≤ s0 + 2 * f.geom.segmentLength.toNat) ∨
      f.fingerprints.length ≤ s0 ∨ f.fingerprints.length ≤ s1 ∨ f.fingerprints.length ≤ s2
    (bad → f.containsC prof key = .panic) ∧
    (¬ bad → f.containsC prof key = .ok (decide ((h ^^^ (h >>> 32)).setWidth w =
      f.fingerprints.getD s0 0#w ^^^ f.fingerprints.getD s1 0#w ^^^ f.fingerprints.getD s2 0#w))) := by
  intro h s0 s1 s2 bad
  obtain ⟨e0, e1, e2⟩ := hashOfHash_nat h f.geom
  obtain ⟨c1, c2⟩ := hashOfHashC_cases prof h f.geom
  have key' : hashOfHashC prof h f.geom = .ok (hashOfHash h f.geom) → f.containsC prof key =
      if s0 < f.fingerprints.length ∧ s1 < f.fingerprints.length ∧ s2 < f.fingerprints.length then
        .ok (decide ((h ^^^ (h >>> 32)).setWidth w =
          f.fingerprints.getD s0 0#w ^^^ f.fingerprints.getD s1 0#w ^^^ f.fingerprints.getD s2 0#w)) else .panic := by
    intro hc
    unfold BinaryFuse.containsC
    simp only [show mix key f.seed = h from rfl, hc, Res.bind_ok]
    rw [rd3 f.fingerprints _ _ _ fun f0 f1 f2 => decide ((fingerprint h).setWidth w ^^^ (f0 ^^^ f1 ^^^ f2) = 0#w), e0, e1, e2]
    have hx : ∀ a b : BitVec w, decide (a ^^^ b = 0#w) = decide (a = b) := by
      intro a b
      congr 1
      rw [BitVec.xor_eq_zero_iff]
    rw [hx]
    rfl
  constructor
  · intro hb
    by_cases hover : prof = .debug ∧ 2 ^ 32 ≤ s0 + 2 * f.geom.segmentLength.toNat
    · unfold BinaryFuse.containsC
      simp only [show mix key f.seed = h from rfl, c1 hover, Res.bind_panic]
    · rw [key' (c2 hover), if_neg]
      rintro ⟨h0, h1, h2⟩
      rcases hb with hb | hb | hb | hb
      · exact hover hb
      · omega
      · omega
      · omega
  · intro hb
    have hover : ¬ (prof = .debug ∧ 2 ^ 32 ≤ s0 + 2 * f.geom.segmentLength.toNat) := fun h' => hb (.inl h')
    rw [key' (c2 hover), if_pos]
    refine ⟨?_, ?_, ?_⟩
    · by_contra hc; exact hb (.inr (.inl (by omega)))
    · by_contra hc; exact hb (.inr (.inr (.inl (by omega))))
    · by_contra hc; exact hb (.inr (.inr (.inr (by omega))))

/-- Every hash is the hash of a key. -/
theorem exists_mix (seed h : U64) : ∃ key, mix key seed = h := (C32_mix_bijective seed).2 h

/-- **C85 (binary fuse, too short).** If the fingerprints are fewer than `segment_count_length + 2 * segment_length` (whatever the
mask), some key makes the lookup panic in both build profiles; if that sum exceeds `2^32`, some key does in debug
builds. -/
theorem C85_binary_fuse_unsafe (w : Nat) (f : BinaryFuse w) (hc : 0 < f.geom.segmentCountLength.toNat) :
    (f.geom.segmentCountLength.toNat + 2 * f.geom.segmentLength.toNat ≤ 2 ^ 32 →
      f.fingerprints.length < f.geom.segmentCountLength.toNat + 2 * f.geom.segmentLength.toNat →
      ∃ key, ∀ prof, f.containsC prof key = .panic) ∧
    (2 ^ 32 < f.geom.segmentCountLength.toNat + 2 * f.geom.segmentLength.toNat →
      ∃ key, f.containsC .debug key = .panic) := by
  obtain ⟨key, hk⟩ := exists_mix f.seed 0xffffffff00000000#64
  have hlt := f.geom.segmentCountLength.isLt
  have hs0 : (0xffffffff00000000#64).toNat * f.geom.segmentCountLength.toNat / 2 ^ 64 =
      f.geom.segmentCountLength.toNat - 1 := by
    rw [show (0xffffffff00000000#64).toNat = 2 ^ 64 - 2 ^ 32 from rfl]
    omega
  constructor
  · intro h1 h2
    refine ⟨key, fun prof => ?_⟩
    have := C85_binary_fuse w prof f key
    rw [hk] at this
    refine this.1 (.inr (.inr (.inr ?_)))
    rw [hs0, show (0xffffffff00000000#64).toNat % 2 ^ 32 = 0 from rfl, Nat.zero_and, Nat.xor_zero,
      Nat.mod_eq_of_lt (by omega)]
    omega
  · intro h1
    refine ⟨key, ?_⟩
    have := C85_binary_fuse w .debug f key
    rw [hk] at this
    refine this.1 (.inl ⟨rfl, ?_⟩)
    rw [hs0]
    omega

/-- **C85 (binary fuse, safe).** For segments of a power of two, with the matching mask and a whole number `k > 0` of segments: no
lookup panics, in either build profile, exactly when there are fingerprints for `k + 2` segments. -/
theorem C85_binary_fuse_safe (w : Nat) (f : BinaryFuse w) (s k : Nat) (hk : 0 < k)
    (hsl : f.geom.segmentLength.toNat = 2 ^ s) (hmask : f.geom.segmentLengthMask.toNat = 2 ^ s - 1)
    (hscl : f.geom.segmentCountLength.toNat = k * 2 ^ s) (hfit : (k + 2) * 2 ^ s < 2 ^ 32) (prof : Profile) :
    (∀ key, ∃ b, f.containsC prof key = .ok b) ↔ (k + 2) * 2 ^ s ≤ f.fingerprints.length := by
  have hpos := Nat.two_pow_pos s
  have hsum : f.geom.segmentCountLength.toNat + 2 * f.geom.segmentLength.toNat = (k + 2) * 2 ^ s := by
    rw [hsl, hscl, Nat.add_mul]
  constructor
  · intro h
    by_contra hn
    obtain ⟨key, hkey⟩ := (C85_binary_fuse_unsafe w f (by rw [hscl]; exact Nat.mul_pos hk hpos)).1
      (by omega) (by omega)
    obtain ⟨b, hb⟩ := h key
    rw [hkey prof] at hb
    cases hb
  · intro hl key
    have hwf : f.geom.WF ((k + 2) * 2 ^ s) s k := ⟨hsl, hmask, hscl, hk, rfl, hfit⟩
    obtain ⟨l0, l1, l2, -⟩ := hashOfHash_lt hwf (mix key f.seed)
    have hC := hashOfHashC_ok hwf prof (mix key f.seed)
    unfold BinaryFuse.containsC
    simp only [hC, Res.bind_ok]
    rw [rd_ok (Nat.lt_of_lt_of_le l0 hl), Res.bind_ok, rd_ok (Nat.lt_of_lt_of_le l1 hl), Res.bind_ok,
      rd_ok (Nat.lt_of_lt_of_le l2 hl), Res.bind_ok]
    exact ⟨_, rfl⟩

theorem assignStepX_length {w : Nat} {g : Geom} {fp fp' : List (BitVec w)} {e : U64 × Nat}
    (h : assignStepX g fp e = .ok fp') : fp'.length = fp.length := by
  unfold assignStepX at h
  simp only at h
  obtain ⟨_, _, h⟩ := Res.bind_eq_ok.1 h
  obtain ⟨_, _, h⟩ := Res.bind_eq_ok.1 h
  obtain ⟨_, _, h⟩ := Res.bind_eq_ok.1 h
  obtain ⟨_, _, h⟩ := Res.bind_eq_ok.1 h
  obtain ⟨_, _, h⟩ := Res.bind_eq_ok.1 h
  unfold wr at h
  split at h
  · cases h; simp
  · cases h

/-- A constructed filter has a well-formed geometry and an array of the right length. -/
theorem bfx_wf {w : Nat} {prof : Profile} {segExp cap0 maxIter : Nat} {fp0 : Nat → BitVec w} {keys : List U64}
    {f : BinaryFuse w} (h : bfuseXFromImpl w prof segExp cap0 maxIter fp0 keys = .ok f) :
    ∃ s k, f.geom.WF f.fingerprints.length s k := by
  unfold bfuseXFromImpl at h
  split at h
  · cases h
  · obtain ⟨lay, hlay, h⟩ := Res.bind_eq_ok.1 h
    obtain ⟨⟨stk, sd⟩, hb, h⟩ := Res.bind_eq_ok.1 h
    obtain ⟨fp, ha, h⟩ := Res.bind_eq_ok.1 h
    cases h
    obtain ⟨s, _, hg⟩ := bfLayout_wf hlay
    have hl : fp.length = lay.arrayLen := by
      refine foldRes_inv_ok (fun _ fp => fp.length = lay.arrayLen) (by simp) ?_ ha
      intro _ e _ fp fp' _ hl hs
      rw [assignStepX_length hs, hl]
    exact ⟨s, lay.segmentCount, by rw [hl]; exact hg⟩

/-- **C85 (binary fuse, built filters).** A filter returned by the constructor is safe for every key in both build
profiles, also after it was written and read back; and, under the condition of C40, every key it was built from is
found. -/
theorem C85_binary_fuse_built (w : Nat) (prof prof' : Profile) (segExp cap0 : Nat) (fp0 : Nat → BitVec w)
    (keys : List U64) (f : BinaryFuse w) (hf : BinaryFuse.tryFrom w prof segExp cap0 fp0 keys = .ok f) :
    ∃ g, BinaryFuse.fromJson w f.toJson = .ok g ∧ (∀ key, ∃ b, g.containsC prof' key = .ok b) ∧
      ((prof = .debug ∨ ∀ s, slotLoadX f.geom f.seed keys s < 64) →
        ∀ key ∈ keys, g.containsC prof' key = .ok true) := by
  obtain ⟨s, k, hwf⟩ := bfx_wf hf
  have hl : (k + 2) * 2 ^ s < 2 ^ 32 := by rw [hwf.len_eq]; exact hwf.len_lt
  refine ⟨f, (C84_round_trip w).1 f,
    (C85_binary_fuse_safe w f s k hwf.kpos hwf.sl hwf.mask hwf.scl hl prof').2 (by rw [hwf.len_eq]), ?_⟩
  intro hload key hk
  rw [← C40_no_false_negatives w prof segExp cap0 fp0 keys f hf hload key hk]
  unfold BinaryFuse.containsC BinaryFuse.contains
  simp only [hashOfHashC_ok hwf prof' (mix key f.seed), Res.bind_ok]

/-- **C85 (binary fuse modulo p, one key).** Retrieval from any filter: it panics exactly when a position is beyond the
fingerprints, the modulus is 0 modulo `2^32` or, in debug builds, a position overflows 32 bits. -/
theorem C85_binary_fuse_p (prof : Profile) (f : BinaryFuseP32) (hs : f.seed.length = 32) (key : Key) (label : U64) :
    ∃ h : U64, mix256 key f.seed = .ok h ∧
    let s0 := h.toNat * f.geom.segmentCountLength.toNat / 2 ^ 64
    let s1 := (s0 + f.geom.segmentLength.toNat) % 2 ^ 32 ^^^
      (h.toNat / 2 ^ 18 % 2 ^ 32 &&& f.geom.segmentLengthMask.toNat)
    let s2 := (s0 + 2 * f.geom.segmentLength.toNat) % 2 ^ 32 ^^^
      (h.toNat % 2 ^ 32 &&& f.geom.segmentLengthMask.toNat)
    let bad := (prof = .debug ∧ 2 ^ 32 ≤ s0 + 2 * f.geom.segmentLength.toNat) ∨
      f.fingerprints.length ≤ s0 ∨ f.fingerprints.length ≤ s1 ∨ f.fingerprints.length ≤ s2 ∨
      f.ptxtMod.toNat % 2 ^ 32 = 0
    (bad → f.retrieveC prof key label = .panic) ∧
    (¬ bad → ∃ x : U32, f.retrieveC prof key label = .ok x ∧
      x.toNat = ((f.fingerprints.getD s0 0#32).toNat + (f.fingerprints.getD s1 0#32).toNat +
        (f.fingerprints.getD s2 0#32).toNat + (mix h label).toNat % f.ptxtMod.toNat) % 2 ^ 32 %
          (f.ptxtMod.toNat % 2 ^ 32)) := by
  obtain ⟨h, hh⟩ := mix256_total hs key
  refine ⟨h, hh, ?_⟩
  intro s0 s1 s2 bad
  obtain ⟨e0, e1, e2⟩ := hashOfHash_nat h f.geom
  obtain ⟨c1, c2⟩ := hashOfHashC_cases prof h f.geom
  have hmod : (f.ptxtMod.setWidth 32 = 0#32 ∨ f.ptxtMod = 0#64) ↔ f.ptxtMod.toNat % 2 ^ 32 = 0 := by
    constructor
    · rintro (e | e)
      · have := congrArg BitVec.toNat e
        rwa [BitVec.toNat_setWidth] at this
      · rw [e]; rfl
    · intro e
      left
      apply BitVec.eq_of_toNat_eq
      rw [BitVec.toNat_setWidth, e]
      rfl
  have key' : hashOfHashC prof h f.geom = .ok (hashOfHash h f.geom) → f.retrieveC prof key label =
      if s0 < f.fingerprints.length ∧ s1 < f.fingerprints.length ∧ s2 < f.fingerprints.length then
        (if f.ptxtMod.setWidth 32 = 0#32 ∨ f.ptxtMod = 0#64 then .panic
          else .ok ((f.fingerprints.getD s0 0#32 + f.fingerprints.getD s1 0#32 + f.fingerprints.getD s2 0#32 +
            (mix h label % f.ptxtMod).setWidth 32) % f.ptxtMod.setWidth 32)) else .panic := by
    intro hc
    unfold BinaryFuseP32.retrieveC
    rw [hh, Res.bind_ok, hc, Res.bind_ok]
    simp only
    split
    · rw [e0, e1, e2]
      have := rd3 f.fingerprints s0 s1 s2 fun _ _ _ => ()
      by_cases hi : s0 < f.fingerprints.length
      · by_cases hj : s1 < f.fingerprints.length
        · by_cases hk : s2 < f.fingerprints.length
          · rw [rd_ok (l := f.fingerprints) (i := s0) hi, Res.bind_ok, rd_ok (l := f.fingerprints) (i := s1) hj,
              Res.bind_ok, rd_ok (l := f.fingerprints) (i := s2) hk, Res.bind_ok, ite_self]
          · rw [rd_ok (l := f.fingerprints) (i := s0) hi, Res.bind_ok, rd_ok (l := f.fingerprints) (i := s1) hj,
              Res.bind_ok, rd_panic (l := f.fingerprints) (i := s2) (by omega), Res.bind_panic, ite_self]
        · rw [rd_ok (l := f.fingerprints) (i := s0) hi, Res.bind_ok,
            rd_panic (l := f.fingerprints) (i := s1) (by omega), Res.bind_panic, ite_self]
      · rw [rd_panic (l := f.fingerprints) (i := s0) (by omega), Res.bind_panic, ite_self]
    · rw [rd3 f.fingerprints _ _ _ fun f0 f1 f2 =>
        (f0 + f1 + f2 + (mix h label % f.ptxtMod).setWidth 32) % f.ptxtMod.setWidth 32, e0, e1, e2]
  constructor
  · intro hb
    by_cases hover : prof = .debug ∧ 2 ^ 32 ≤ s0 + 2 * f.geom.segmentLength.toNat
    · unfold BinaryFuseP32.retrieveC
      rw [hh, Res.bind_ok, c1 hover, Res.bind_panic]
    · rw [key' (c2 hover)]
      by_cases hp : f.ptxtMod.toNat % 2 ^ 32 = 0
      · rw [if_pos (hmod.2 hp), ite_self]
      · rw [if_neg]
        rintro ⟨h0, h1, h2⟩
        rcases hb with hb | hb | hb | hb | hb
        · exact hover hb
        · omega
        · omega
        · omega
        · exact hp hb
  · intro hb
    have hover : ¬ (prof = .debug ∧ 2 ^ 32 ≤ s0 + 2 * f.geom.segmentLength.toNat) := fun h' => hb (.inl h')
    have hp : ¬ f.ptxtMod.toNat % 2 ^ 32 = 0 := fun h' => hb (.inr (.inr (.inr (.inr h'))))
    rw [key' (c2 hover), if_pos, if_neg (fun h => hp (hmod.1 h))]
    · refine ⟨_, rfl, ?_⟩
      rw [BitVec.toNat_umod, BitVec.toNat_setWidth, BitVec.toNat_add, BitVec.toNat_add, BitVec.toNat_add,
        BitVec.toNat_setWidth, BitVec.toNat_umod]
      congr 1
      omega
    · refine ⟨?_, ?_, ?_⟩
      · by_contra hc; exact hb (.inr (.inl (by omega)))
      · by_contra hc; exact hb (.inr (.inr (.inl (by omega))))
      · by_contra hc; exact hb (.inr (.inr (.inr (.inl (by omega)))))

/-! ## Fuse and Xor filters -/

theorem mulC_ok {w : Nat} {prof : Profile} {a b : BitVec w} (h : a.toNat * b.toNat < 2 ^ w) :
    mulC prof a b = .ok (a * b) := by
  cases prof with
  | release => rfl
  | debug => unfold mulC; rw [if_pos h]

theorem reduceC_ok {prof : Profile} {h : U32} {n : U64} (hn : n.toNat ≤ 2 ^ 32) :
    ∃ r, reduceC prof h n = .ok r ∧ r.toNat = reduce h n.toNat := by
  have hlt := h.isLt
  have hm : (h.setWidth 64).toNat * n.toNat < 2 ^ 64 := by
    rw [BitVec.toNat_setWidth, Nat.mod_eq_of_lt (by omega)]
    calc h.toNat * n.toNat ≤ h.toNat * 2 ^ 32 := Nat.mul_le_mul_left _ hn
      _ < 2 ^ 32 * 2 ^ 32 := Nat.mul_lt_mul_of_pos_right hlt (by omega)
      _ = 2 ^ 64 := by norm_num
  refine ⟨_, by unfold reduceC; rw [mulC_ok hm, Res.bind_ok], ?_⟩
  rw [BitVec.toNat_ushiftRight, Nat.shiftRight_eq_div_pow, BitVec.toNat_mul, Nat.mod_eq_of_lt hm,
    BitVec.toNat_setWidth, Nat.mod_eq_of_lt (by omega)]
  rfl

theorem reduce_le {h : U32} {n : Nat} : reduce h n ≤ n := by
  unfold reduce
  have := h.isLt
  apply Nat.div_le_of_le_mul
  exact Nat.mul_le_mul_right _ (by omega)

/-- Up to a block length of `2^32` nothing overflows in the lookup of an Xor filter. -/
theorem xor_containsC_eq {w : Nat} (prof : Profile) (f : Xor w) (hb : f.blockLength ≤ 2 ^ 32) (key : U64) :
    f.containsC prof key = f.contains key := by
  have hbl : (BitVec.ofNat 64 f.blockLength : U64).toNat = f.blockLength := by
    rw [BitVec.toNat_ofNat, Nat.mod_eq_of_lt (by omega)]
  unfold Xor.containsC Xor.contains
  generalize hh : mix key f.seed = h
  obtain ⟨r0, e0, v0⟩ := reduceC_ok (prof := prof) (h := (rotl64 h 0).setWidth 32) (n := BitVec.ofNat 64 f.blockLength)
    (by rw [hbl]; exact hb)
  obtain ⟨r1, e1, v1⟩ := reduceC_ok (prof := prof) (h := (rotl64 h 21).setWidth 32) (n := BitVec.ofNat 64 f.blockLength)
    (by rw [hbl]; exact hb)
  obtain ⟨r2, e2, v2⟩ := reduceC_ok (prof := prof) (h := (rotl64 h 42).setWidth 32) (n := BitVec.ofNat 64 f.blockLength)
    (by rw [hbl]; exact hb)
  rw [hbl] at v0 v1 v2
  have w1 : r1.toNat ≤ f.blockLength := by rw [v1]; exact reduce_le
  have w2 : r2.toNat ≤ f.blockLength := by rw [v2]; exact reduce_le
  have t2 : ((2#64 : U64) * BitVec.ofNat 64 f.blockLength).toNat = 2 * f.blockLength := by
    rw [BitVec.toNat_mul, hbl, Nat.mod_eq_of_lt (by simp; omega)]
    rfl
  simp only [e0, e1, e2, Res.bind_ok]
  rw [addC_ok (a := r1) (by rw [hbl]; omega), mulC_ok (by rw [hbl]; simp; omega)]
  simp only [Res.bind_ok]
  rw [addC_ok (a := r2) (by rw [t2]; omega)]
  simp only [Res.bind_ok]
  have a1 : (r1 + BitVec.ofNat 64 f.blockLength).toNat = xorH 1 f.blockLength h + f.blockLength := by
    rw [BitVec.toNat_add, hbl, Nat.mod_eq_of_lt (by omega), v1]
    rfl
  have a2 : (r2 + 2#64 * BitVec.ofNat 64 f.blockLength).toNat = xorH 2 f.blockLength h + 2 * f.blockLength := by
    rw [BitVec.toNat_add, t2, Nat.mod_eq_of_lt (by omega), v2]
    rfl
  rw [a1, a2, v0]
  rfl

/-- **C85 (xor).** For block lengths up to `2^32`: no lookup panics, in either build profile, exactly when there are fingerprints for
three blocks (and at least one); otherwise some key makes the lookup panic. -/
theorem C85_xor_safe (w : Nat) (prof : Profile) (f : Xor w) (hb : f.blockLength ≤ 2 ^ 32) :
    (max 1 (3 * f.blockLength) ≤ f.fingerprints.length → ∀ key, ∃ b, f.containsC prof key = .ok b) ∧
    (f.fingerprints.length < max 1 (3 * f.blockLength) → ∃ key, f.containsC prof key = .panic) := by
  have hr : ∀ n ≤ 2 ^ 32, reduce 0xffffffff#32 n = n - 1 := by
    intro n hn
    unfold reduce
    rw [show (0xffffffff#32).toNat = 2 ^ 32 - 1 from rfl]
    omega
  constructor
  · intro hl key
    rw [xor_containsC_eq prof f hb key]
    unfold Xor.contains
    simp only
    rw [rd3 f.fingerprints _ _ _ fun a b c => decide ((fingerprint (mix key f.seed)).setWidth w = a ^^^ b ^^^ c)]
    have hlt : ∀ b h, xorH b f.blockLength h + b * f.blockLength < f.fingerprints.length ∨ 2 < b := by
      intro b h
      by_cases hb2 : 2 < b
      · exact .inr hb2
      · left
        rcases Nat.eq_zero_or_pos f.blockLength with h0 | h0
        · have : xorH b f.blockLength h = 0 := by rw [h0]; unfold xorH reduce; simp
          rw [this, h0]
          omega
        · have := xorH_lt h0 b h
          have : b * f.blockLength ≤ 2 * f.blockLength := Nat.mul_le_mul_right _ (by omega)
          omega
    have l0 := (hlt 0 (mix key f.seed)).resolve_right (by omega)
    have l1 := (hlt 1 (mix key f.seed)).resolve_right (by omega)
    have l2 := (hlt 2 (mix key f.seed)).resolve_right (by omega)
    rw [Nat.zero_mul, Nat.add_zero] at l0
    rw [Nat.one_mul] at l1
    rw [if_pos ⟨l0, l1, l2⟩]
    exact ⟨_, rfl⟩
  · intro hl
    obtain ⟨key, hk⟩ := exists_mix f.seed 0xffffffffffffffff#64
    refine ⟨key, ?_⟩
    rw [xor_containsC_eq prof f hb key]
    unfold Xor.contains
    simp only [hk]
    rw [rd3 f.fingerprints _ _ _ fun a b c => decide ((fingerprint 0xffffffffffffffff#64).setWidth w = a ^^^ b ^^^ c), if_neg]
    rintro ⟨l0, -, l2⟩
    have : xorH 2 f.blockLength 0xffffffffffffffff#64 = f.blockLength - 1 := by
      unfold xorH
      rw [show (rotl64 0xffffffffffffffff#64 (2 * 21)).setWidth 32 = 0xffffffff#32 by decide]
      exact hr _ hb
    rw [this] at l2
    omega

/-- The slots of a Fuse filter with overflow checks. -/
theorem h012C_ok (prof : Profile) (h : U64) {sl : U64} (hb : sl.toNat ≤ 2 ^ 32) :
    ∃ a b c, h012C prof h sl = .ok (a, b, c) ∧ a.toNat = (h012 h sl.toNat).1 ∧ b.toNat = (h012 h sl.toNat).2.1 ∧
      c.toNat = (h012 h sl.toNat).2.2 := by
  obtain ⟨seg, es, vs⟩ := reduceC_ok (prof := prof) (h := h.setWidth 32) (n := 100#64) (by simp)
  have hseg : seg.toNat < 100 := by
    rw [vs]; exact reduce_lt _ (by simp)
  obtain ⟨r1, e1, v1⟩ := reduceC_ok (prof := prof) (h := (rotl64 h 21).setWidth 32) hb
  obtain ⟨r2, e2, v2⟩ := reduceC_ok (prof := prof) (h := (rotl64 h 42).setWidth 32) hb
  obtain ⟨r3, e3, v3⟩ := reduceC_ok (prof := prof) (h := ((0xbf58476d1ce4e5b9#64 * h) >>> 32).setWidth 32) hb
  have w1 : r1.toNat ≤ sl.toNat := by rw [v1]; exact reduce_le
  have w2 : r2.toNat ≤ sl.toNat := by rw [v2]; exact reduce_le
  have w3 : r3.toNat ≤ sl.toNat := by rw [v3]; exact reduce_le
  have hmul : ∀ x : U64, x.toNat < 102 → (x * sl).toNat = x.toNat * sl.toNat ∧ x.toNat * sl.toNat ≤ 102 * 2 ^ 32 := by
    intro x hx
    have : x.toNat * sl.toNat ≤ 102 * 2 ^ 32 := Nat.mul_le_mul (by omega) hb
    exact ⟨by rw [BitVec.toNat_mul, Nat.mod_eq_of_lt (by omega)], this⟩
  have t1 : (seg + 1#64).toNat = seg.toNat + 1 := by
    rw [BitVec.toNat_add, show (1#64).toNat = 1 from rfl, Nat.mod_eq_of_lt (by omega)]
  have t2 : (seg + 2#64).toNat = seg.toNat + 2 := by
    rw [BitVec.toNat_add, show (2#64).toNat = 2 from rfl, Nat.mod_eq_of_lt (by omega)]
  obtain ⟨m0, b0⟩ := hmul seg (by omega)
  obtain ⟨m1, b1⟩ := hmul (seg + 1#64) (by omega)
  obtain ⟨m2, b2⟩ := hmul (seg + 2#64) (by omega)
  refine ⟨seg * sl + r1, (seg + 1#64) * sl + r2, (seg + 2#64) * sl + r3, ?_, ?_, ?_, ?_⟩
  · unfold h012C
    simp only [es, e1, e2, e3, Res.bind_ok]
    rw [mulC_ok (a := seg) (by omega), addC_ok (a := seg) (b := 1#64) (by simp; omega),
      addC_ok (a := seg) (b := 2#64) (by simp; omega)]
    simp only [Res.bind_ok]
    rw [addC_ok (by rw [m0]; omega), mulC_ok (by omega), mulC_ok (a := seg + 2#64) (by omega)]
    simp only [Res.bind_ok]
    rw [addC_ok (by rw [m1]; omega), addC_ok (by rw [m2]; omega)]
    rfl
  · rw [BitVec.toNat_add, m0, Nat.mod_eq_of_lt (by omega), v1, vs]
    rfl
  · rw [BitVec.toNat_add, m1, Nat.mod_eq_of_lt (by omega), v2, t1, vs]
    rfl
  · rw [BitVec.toNat_add, m2, Nat.mod_eq_of_lt (by omega), v3, t2, vs]
    rfl

/-- Up to a segment length of `2^32` nothing overflows in the lookup of a Fuse filter. -/
theorem fuse_containsC_eq {w : Nat} (prof : Profile) (f : Fuse w) (hb : f.segmentLength ≤ 2 ^ 32) (key : U64) :
    f.containsC prof key = f.contains key := by
  have hsl : (BitVec.ofNat 64 f.segmentLength : U64).toNat = f.segmentLength := by
    rw [BitVec.toNat_ofNat, Nat.mod_eq_of_lt (by omega)]
  obtain ⟨a, b, c, e, h0, h1, h2⟩ := h012C_ok prof (mix key f.seed) (sl := BitVec.ofNat 64 f.segmentLength)
    (by rw [hsl]; exact hb)
  rw [hsl] at h0 h1 h2
  unfold Fuse.containsC Fuse.contains
  simp only [e, Res.bind_ok, h0, h1, h2]

/-- **C85 (fuse).** For segment lengths up to `2^32`: no lookup panics, in either build profile, exactly when there are fingerprints
for 102 segments (and at least one); otherwise some key makes the lookup panic. -/
theorem C85_fuse_safe (w : Nat) (prof : Profile) (f : Fuse w) (hb : f.segmentLength ≤ 2 ^ 32) :
    (max 1 (102 * f.segmentLength) ≤ f.fingerprints.length → ∀ key, ∃ b, f.containsC prof key = .ok b) ∧
    (f.fingerprints.length < max 1 (102 * f.segmentLength) → ∃ key, f.containsC prof key = .panic) := by
  have hr : ∀ n ≤ 2 ^ 32, reduce 0xffffffff#32 n = n - 1 := by
    intro n hn
    unfold reduce
    rw [show (0xffffffff#32).toNat = 2 ^ 32 - 1 from rfl]
    omega
  constructor
  · intro hl key
    rw [fuse_containsC_eq prof f hb key]
    unfold Fuse.contains
    simp only
    rw [rd3 f.fingerprints _ _ _ fun a b c => decide ((fingerprint (mix key f.seed)).setWidth w = a ^^^ b ^^^ c), if_pos]
    · exact ⟨_, rfl⟩
    · rcases Nat.eq_zero_or_pos f.segmentLength with h0 | h0
      · rw [h0]
        simp only [h012, Nat.mul_zero, reduce, Nat.zero_div]
        omega
      · have := (fuseHset_spec h0 (mix key f.seed)).2
        unfold fuseHset at this
        have l0 := this (h012 (mix key f.seed) f.segmentLength).1 (by simp)
        have l1 := this (h012 (mix key f.seed) f.segmentLength).2.1 (by simp)
        have l2 := this (h012 (mix key f.seed) f.segmentLength).2.2 (by simp)
        have hl' : 102 * f.segmentLength ≤ f.fingerprints.length := by omega
        exact ⟨Nat.lt_of_lt_of_le l0 hl', Nat.lt_of_lt_of_le l1 hl', Nat.lt_of_lt_of_le l2 hl'⟩
  · intro hl
    obtain ⟨key, hk⟩ := exists_mix f.seed 0x9fa88954ffffffff#64
    refine ⟨key, ?_⟩
    rw [fuse_containsC_eq prof f hb key]
    unfold Fuse.contains
    simp only [hk]
    rw [rd3 f.fingerprints _ _ _ fun a b c => decide ((fingerprint 0x9fa88954ffffffff#64).setWidth w = a ^^^ b ^^^ c), if_neg]
    rintro ⟨-, -, l2⟩
    have : (h012 0x9fa88954ffffffff#64 f.segmentLength).2.2 = 101 * f.segmentLength + (f.segmentLength - 1) := by
      unfold h012
      simp only
      rw [show ((0xbf58476d1ce4e5b9#64 * 0x9fa88954ffffffff#64) >>> 32).setWidth 32 = 0xffffffff#32 by decide,
        hr _ hb, show reduce (BitVec.setWidth 32 0x9fa88954ffffffff#64) 100 = 99 by decide]
    rw [this] at l2
    omega

/-- **C85 (fuse and xor, built filters).** Filters returned by the constructors and read back from what serde writes: every key
they were built from is found, in both build profiles, and no lookup panics. -/
theorem C85_fuse_xor_built (w : Nat) (prof prof' : Profile) (c0 : Nat) (hc : c0 < 2 ^ 32) (keys : List U64)
    (hl : keys.length < 2 ^ 32) :
    (∀ fp0 f, Fuse.tryFrom w prof c0 fp0 keys = .ok f → 102 ≤ c0 →
      ∃ g, Fuse.fromJson w f.toJson = .ok g ∧ (∀ key, ∃ b, g.containsC prof' key = .ok b) ∧
        ∀ key ∈ keys, g.containsC prof' key = .ok true) ∧
    (∀ n f, Xor.fromWithin w prof c0 keys n = .ok f →
      ∃ g, Xor.fromJson w f.toJson = .ok g ∧ (∀ key, ∃ b, g.containsC prof' key = .ok b) ∧
        ∀ key ∈ keys, g.containsC prof' key = .ok true) := by
  constructor
  · intro fp0 f hf h102
    have hd : prof = .debug → keys.Nodup := by
      intro hp
      by_contra hn
      unfold Fuse.tryFrom fuseFromImpl at hf
      rw [if_pos ⟨hp, hn⟩] at hf
      cases hf
    obtain ⟨hs, hlen⟩ : f.segmentLength = c0 / 102 ∧ f.fingerprints.length = 102 * (c0 / 102) := by
      unfold Fuse.tryFrom at hf
      rcases fuseFromImpl_spec (w := w) (maxIter := 1000) (fp0 := fp0) hl h102 hd with h | ⟨f', h1, h2, h3, -⟩
      · rw [h] at hf; cases hf
      · rw [h1] at hf
        cases hf
        exact ⟨h2, h3⟩
    have hb : f.segmentLength ≤ 2 ^ 32 := by omega
    refine ⟨f, (C84_round_trip w).2.2.1 f (by omega), (C85_fuse_safe w prof' f hb).1 (by omega), ?_⟩
    intro key hk
    rw [fuse_containsC_eq prof' f hb]
    exact C43_no_false_negatives w prof c0 fp0 keys hl f hf key hk
  · intro n f hf
    obtain ⟨hs, hlen⟩ : f.blockLength = (c0 + 32) / 3 ∧ f.fingerprints.length = 3 * ((c0 + 32) / 3) := by
      rcases xorFrom_spec w (c0 := c0) hl (xorFrom_nodup hf) n with h | ⟨f', h1, h2, h3, -⟩
      · rw [h] at hf; cases hf
      · rw [h1 n le_rfl] at hf
        cases hf
        exact ⟨h2, h3⟩
    have hb : f.blockLength ≤ 2 ^ 32 := by omega
    refine ⟨f, (C84_round_trip w).2.2.2.1 f (by omega), (C85_xor_safe w prof' f hb).1 (by omega), ?_⟩
    intro key hk
    rw [xor_containsC_eq prof' f hb]
    exact C41_no_false_negatives w prof c0 keys hl n f hf key hk

/-! ### One key of an Xor or Fuse filter, whatever the fields -/

theorem mulC_if {w : Nat} (prof : Profile) (a b : BitVec w) :
    mulC prof a b = if prof = .debug ∧ 2 ^ w ≤ a.toNat * b.toNat then .panic else .ok (a * b) := by
  cases prof with
  | release => rfl
  | debug =>
    unfold mulC
    by_cases h : a.toNat * b.toNat < 2 ^ w
    · rw [if_pos h, if_neg (by omega)]
    · rw [if_neg h, if_pos ⟨rfl, by omega⟩]

theorem addC_if {w : Nat} (prof : Profile) (a b : BitVec w) :
    addC prof a b = if prof = .debug ∧ 2 ^ w ≤ a.toNat + b.toNat then .panic else .ok (a + b) := by
  cases prof with
  | release => rfl
  | debug =>
    unfold addC
    by_cases h : a.toNat + b.toNat < 2 ^ w
    · rw [if_pos h, if_neg (by omega)]
    · rw [if_neg h, if_pos ⟨rfl, by omega⟩]

theorem reduceC_if (prof : Profile) (h : U32) (n : U64) :
    reduceC prof h n = if prof = .debug ∧ 2 ^ 64 ≤ h.toNat * n.toNat then .panic else .ok ((h.setWidth 64 * n) >>> 32) := by
  unfold reduceC
  rw [mulC_if, BitVec.toNat_setWidth, Nat.mod_eq_of_lt (a := h.toNat) (by have := h.isLt; omega)]
  split_ifs <;> rfl

theorem rd_then_panic {α β : Type} (l : List α) (i : Nat) : (rd l i >>= fun _ => (.panic : Res β)) = .panic := by
  by_cases h : i < l.length
  · rw [rd_ok h, Res.bind_ok]
  · rw [rd_panic (by omega), Res.bind_panic]

theorem reduce_toNat (h : U32) (n : U64) :
    ((h.setWidth 64 * n) >>> 32).toNat = h.toNat * n.toNat % 2 ^ 64 / 2 ^ 32 := by
  rw [BitVec.toNat_ushiftRight, Nat.shiftRight_eq_div_pow, BitVec.toNat_mul, BitVec.toNat_setWidth,
    Nat.mod_eq_of_lt (a := h.toNat) (by have := h.isLt; omega)]

theorem if_bind {α β : Type} {c : Prop} [Decidable c] {x : α} {k : α → Res β} :
    ((if c then .panic else .ok x : Res α) >>= k) = if c then .panic else k x := by
  split_ifs <;> rfl

/-- **C85 (xor, one key).** In any Xor filter, for any key: with `h` the hash of the key and `p0`, `p1`, `p2` the three
positions (computed modulo `2^64`), the lookup panics exactly when one of the positions is beyond the fingerprints or, in
debug builds, when one of the products or sums does not fit 64 bits. Otherwise it answers whether the fingerprint of the
key is the exclusive or of the three cells. -/
theorem C85_xor (w : Nat) (prof : Profile) (f : Xor w) (hf : f.blockLength < 2 ^ 64) (key : U64) :
    let h := mix key f.seed
    let bl := f.blockLength
    let r0 := h.toNat % 2 ^ 32
    let r1 := (h.rotateLeft 21).toNat % 2 ^ 32
    let r2 := (h.rotateLeft 42).toNat % 2 ^ 32
    let p0 := r0 * bl % 2 ^ 64 / 2 ^ 32
    let p1 := (r1 * bl % 2 ^ 64 / 2 ^ 32 + bl) % 2 ^ 64
    let p2 := (r2 * bl % 2 ^ 64 / 2 ^ 32 + 2 * bl) % 2 ^ 64
    let overflow := 2 ^ 64 ≤ r0 * bl ∨ 2 ^ 64 ≤ r1 * bl ∨ 2 ^ 64 ≤ r2 * bl ∨ 2 ^ 64 ≤ r1 * bl / 2 ^ 32 + bl ∨
      2 ^ 64 ≤ r2 * bl / 2 ^ 32 + 2 * bl
    let bad := (prof = .debug ∧ overflow) ∨ f.fingerprints.length ≤ p0 ∨ f.fingerprints.length ≤ p1 ∨
      f.fingerprints.length ≤ p2
    (bad → f.containsC prof key = .panic) ∧
    (¬ bad → f.containsC prof key = .ok (decide ((h ^^^ (h >>> 32)).setWidth w =
      f.fingerprints.getD p0 0#w ^^^ f.fingerprints.getD p1 0#w ^^^ f.fingerprints.getD p2 0#w))) := by
  intro h bl r0 r1 r2 p0 p1 p2 overflow bad
  have hbl : (BitVec.ofNat 64 f.blockLength : U64).toNat = bl := by
    rw [BitVec.toNat_ofNat, Nat.mod_eq_of_lt hf]
  have e0 : ((rotl64 h 0).setWidth 32).toNat = r0 := by
    have : rotl64 h 0 = h := by unfold rotl64; simp
    rw [this, BitVec.toNat_setWidth]
  have e1 : ((rotl64 h 21).setWidth 32).toNat = r1 := by
    rw [BitVec.toNat_setWidth]; rfl
  have e2 : ((rotl64 h 42).setWidth 32).toNat = r2 := by
    rw [BitVec.toNat_setWidth]; rfl
  have key' : f.containsC prof key =
      if prof = .debug ∧ overflow then .panic else
        (rd f.fingerprints p0 >>= fun a => rd f.fingerprints p1 >>= fun b => rd f.fingerprints p2 >>= fun c =>
          .ok (decide ((h ^^^ (h >>> 32)).setWidth w = a ^^^ b ^^^ c))) := by
    unfold Xor.containsC
    simp only [reduceC_if, if_bind, addC_if, mulC_if, hbl, reduce_toNat]
    rw [show mix key f.seed = h from rfl, e0, e1, e2]
    have q1 : ((BitVec.setWidth 64 (BitVec.setWidth 32 (rotl64 h 21)) * BitVec.ofNat 64 f.blockLength) >>> 32 +
        BitVec.ofNat 64 f.blockLength).toNat = p1 := by
      rw [BitVec.toNat_add, reduce_toNat, hbl, e1]
    have q2' : (2#64 * BitVec.ofNat 64 f.blockLength).toNat = 2 * bl % 2 ^ 64 := by
      rw [BitVec.toNat_mul, hbl]
      rfl
    have q2 : ((BitVec.setWidth 64 (BitVec.setWidth 32 (rotl64 h 42)) * BitVec.ofNat 64 f.blockLength) >>> 32 +
        2#64 * BitVec.ofNat 64 f.blockLength).toNat = p2 := by
      rw [BitVec.toNat_add, reduce_toNat, hbl, e2, q2', Nat.add_mod_mod]
    rw [q1, q2, q2', show r0 * bl % 2 ^ 64 / 2 ^ 32 = p0 from rfl, show (2#64).toNat = 2 from rfl]
    rw [show fingerprint h = h ^^^ (h >>> 32) from rfl]
    by_cases hov : prof = .debug ∧ overflow
    · rw [if_pos hov]
      obtain ⟨rfl, hov⟩ := hov
      simp only [true_and]
      by_cases c0 : 2 ^ 64 ≤ r0 * bl
      · rw [if_pos c0]
      by_cases c1 : 2 ^ 64 ≤ r1 * bl
      · rw [if_neg c0, if_pos c1]
      by_cases c2 : 2 ^ 64 ≤ r2 * bl
      · rw [if_neg c0, if_neg c1, if_pos c2]
      rw [if_neg c0, if_neg c1, if_neg c2, Nat.mod_eq_of_lt (a := r1 * bl) (by omega),
        Nat.mod_eq_of_lt (a := r2 * bl) (by omega)]
      by_cases c3 : 2 ^ 64 ≤ r1 * bl / 2 ^ 32 + bl
      · simp only [if_pos c3]
        exact rd_then_panic _ _
      by_cases c4 : 2 ^ 64 ≤ 2 * bl
      · simp only [if_neg c3, if_pos c4, rd_then_panic]
      rw [Nat.mod_eq_of_lt (a := 2 * bl) (by omega)]
      have c5 : 2 ^ 64 ≤ r2 * bl / 2 ^ 32 + 2 * bl := by omega
      simp only [if_neg c3, if_neg c4, if_pos c5, rd_then_panic]
    · rw [if_neg hov]
      by_cases hd : prof = .debug
      · have hno : ¬ overflow := fun h => hov ⟨hd, h⟩
        have c0 : ¬ 2 ^ 64 ≤ r0 * bl := fun h => hno (.inl h)
        have c1 : ¬ 2 ^ 64 ≤ r1 * bl := fun h => hno (.inr (.inl h))
        have c2 : ¬ 2 ^ 64 ≤ r2 * bl := fun h => hno (.inr (.inr (.inl h)))
        have c3 : ¬ 2 ^ 64 ≤ r1 * bl / 2 ^ 32 + bl := fun h => hno (.inr (.inr (.inr (.inl h))))
        have c4 : ¬ 2 ^ 64 ≤ r2 * bl / 2 ^ 32 + 2 * bl := fun h => hno (.inr (.inr (.inr (.inr h))))
        have c5 : ¬ 2 ^ 64 ≤ 2 * bl := by omega
        rw [Nat.mod_eq_of_lt (a := r1 * bl) (by omega), Nat.mod_eq_of_lt (a := r2 * bl) (by omega),
          Nat.mod_eq_of_lt (a := 2 * bl) (by omega)]
        simp only [c0, c1, c2, c3, c4, c5, and_false, if_false]
      · simp only [hd, false_and, if_false]
  rw [key']
  constructor
  · rintro (hb | hb)
    · rw [if_pos hb]
    · split_ifs
      · rfl
      · rw [rd3 f.fingerprints _ _ _ fun a b c => decide ((h ^^^ (h >>> 32)).setWidth w = a ^^^ b ^^^ c), if_neg (by omega)]
  · intro hb
    rw [if_neg (fun h => hb (.inl h)), rd3 f.fingerprints _ _ _ fun a b c => decide ((h ^^^ (h >>> 32)).setWidth w = a ^^^ b ^^^ c),
      if_pos (by omega)]

/-- **C85 (fuse, one key).** The same for a Fuse filter: with `h` the hash of the key, `seg` the first of its three adjacent
segments (of 102) and `p0`, `p1`, `p2` the positions in them, computed modulo `2^64`. -/
theorem C85_fuse (w : Nat) (prof : Profile) (f : Fuse w) (hf : f.segmentLength < 2 ^ 64) (key : U64) :
    let h := mix key f.seed
    let sl := f.segmentLength
    let seg := h.toNat % 2 ^ 32 * 100 / 2 ^ 32
    let r1 := (h.rotateLeft 21).toNat % 2 ^ 32
    let r2 := (h.rotateLeft 42).toNat % 2 ^ 32
    let r3 := 0xbf58476d1ce4e5b9 * h.toNat % 2 ^ 64 / 2 ^ 32
    let p0 := (seg * sl + r1 * sl % 2 ^ 64 / 2 ^ 32) % 2 ^ 64
    let p1 := ((seg + 1) * sl + r2 * sl % 2 ^ 64 / 2 ^ 32) % 2 ^ 64
    let p2 := ((seg + 2) * sl + r3 * sl % 2 ^ 64 / 2 ^ 32) % 2 ^ 64
    let overflow := 2 ^ 64 ≤ r1 * sl ∨ 2 ^ 64 ≤ r2 * sl ∨ 2 ^ 64 ≤ r3 * sl ∨ 2 ^ 64 ≤ seg * sl + r1 * sl / 2 ^ 32 ∨
      2 ^ 64 ≤ (seg + 1) * sl + r2 * sl / 2 ^ 32 ∨ 2 ^ 64 ≤ (seg + 2) * sl + r3 * sl / 2 ^ 32
    let bad := (prof = .debug ∧ overflow) ∨ f.fingerprints.length ≤ p0 ∨ f.fingerprints.length ≤ p1 ∨
      f.fingerprints.length ≤ p2
    (bad → f.containsC prof key = .panic) ∧
    (¬ bad → f.containsC prof key = .ok (decide ((h ^^^ (h >>> 32)).setWidth w =
      f.fingerprints.getD p0 0#w ^^^ f.fingerprints.getD p1 0#w ^^^ f.fingerprints.getD p2 0#w))) := by
  intro h sl seg r1 r2 r3 p0 p1 p2 overflow bad
  have hsl : (BitVec.ofNat 64 f.segmentLength : U64).toNat = sl := by
    rw [BitVec.toNat_ofNat, Nat.mod_eq_of_lt hf]
  have e0 : (h.setWidth 32).toNat = h.toNat % 2 ^ 32 := BitVec.toNat_setWidth ..
  have e1 : ((rotl64 h 21).setWidth 32).toNat = r1 := by
    rw [BitVec.toNat_setWidth]; rfl
  have e2 : ((rotl64 h 42).setWidth 32).toNat = r2 := by
    rw [BitVec.toNat_setWidth]; rfl
  have e3 : (((0xbf58476d1ce4e5b9#64 * h) >>> 32).setWidth 32).toNat = r3 := by
    rw [BitVec.toNat_setWidth, BitVec.toNat_ushiftRight, Nat.shiftRight_eq_div_pow, BitVec.toNat_mul,
      show (0xbf58476d1ce4e5b9#64).toNat = 0xbf58476d1ce4e5b9 from rfl]
    exact Nat.mod_eq_of_lt (by omega)
  have hseg : seg < 100 := by
    have := Nat.mod_lt h.toNat (show 0 < 2 ^ 32 by omega)
    omega
  obtain ⟨sg, es, vs⟩ := reduceC_ok (prof := prof) (h := h.setWidth 32) (n := 100#64) (by simp)
  have vs' : sg.toNat = seg := by
    rw [vs]
    unfold reduce
    rw [e0]
    rfl
  have t1 : (sg + 1#64).toNat = seg + 1 := by
    rw [BitVec.toNat_add, show (1#64).toNat = 1 from rfl, Nat.mod_eq_of_lt (by omega), vs']
  have t2 : (sg + 2#64).toNat = seg + 2 := by
    rw [BitVec.toNat_add, show (2#64).toNat = 2 from rfl, Nat.mod_eq_of_lt (by omega), vs']
  have a1 : addC prof sg 1#64 = .ok (sg + 1#64) := addC_ok (by simp; omega)
  have a2 : addC prof sg 2#64 = .ok (sg + 2#64) := addC_ok (by simp; omega)
  have q0 : (sg * BitVec.ofNat 64 f.segmentLength +
      (BitVec.setWidth 64 (BitVec.setWidth 32 (rotl64 h 21)) * BitVec.ofNat 64 f.segmentLength) >>> 32).toNat = p0 := by
    rw [BitVec.toNat_add, reduce_toNat, BitVec.toNat_mul, hsl, e1, vs', Nat.mod_add_mod]
  have q1 : ((sg + 1#64) * BitVec.ofNat 64 f.segmentLength +
      (BitVec.setWidth 64 (BitVec.setWidth 32 (rotl64 h 42)) * BitVec.ofNat 64 f.segmentLength) >>> 32).toNat = p1 := by
    rw [BitVec.toNat_add, reduce_toNat, BitVec.toNat_mul, hsl, e2, t1, Nat.mod_add_mod]
  have q2 : ((sg + 2#64) * BitVec.ofNat 64 f.segmentLength +
      (BitVec.setWidth 64 (BitVec.setWidth 32 ((0xbf58476d1ce4e5b9#64 * h) >>> 32)) *
        BitVec.ofNat 64 f.segmentLength) >>> 32).toNat = p2 := by
    rw [BitVec.toNat_add, reduce_toNat, BitVec.toNat_mul, hsl, e3, t2, Nat.mod_add_mod]
  have key' : f.containsC prof key =
      if prof = .debug ∧ overflow then .panic else
        (rd f.fingerprints p0 >>= fun a => rd f.fingerprints p1 >>= fun b => rd f.fingerprints p2 >>= fun c =>
          .ok (decide ((h ^^^ (h >>> 32)).setWidth w = a ^^^ b ^^^ c))) := by
    have m0 : (sg * BitVec.ofNat 64 f.segmentLength).toNat = seg * sl % 2 ^ 64 := by rw [BitVec.toNat_mul, hsl, vs']
    have m1 : ((sg + 1#64) * BitVec.ofNat 64 f.segmentLength).toNat = (seg + 1) * sl % 2 ^ 64 := by
      rw [BitVec.toNat_mul, hsl, t1]
    have m2 : ((sg + 2#64) * BitVec.ofNat 64 f.segmentLength).toNat = (seg + 2) * sl % 2 ^ 64 := by
      rw [BitVec.toNat_mul, hsl, t2]
    have hh : h012C prof h (BitVec.ofNat 64 f.segmentLength) =
        if prof = .debug ∧ overflow then .panic else
          .ok (sg * BitVec.ofNat 64 f.segmentLength +
              (BitVec.setWidth 64 (BitVec.setWidth 32 (rotl64 h 21)) * BitVec.ofNat 64 f.segmentLength) >>> 32,
            (sg + 1#64) * BitVec.ofNat 64 f.segmentLength +
              (BitVec.setWidth 64 (BitVec.setWidth 32 (rotl64 h 42)) * BitVec.ofNat 64 f.segmentLength) >>> 32,
            (sg + 2#64) * BitVec.ofNat 64 f.segmentLength +
              (BitVec.setWidth 64 (BitVec.setWidth 32 ((0xbf58476d1ce4e5b9#64 * h) >>> 32)) *
                BitVec.ofNat 64 f.segmentLength) >>> 32) := by
      unfold h012C
      simp only [es, Res.bind_ok, a1, a2]
      simp only [reduceC_if, if_bind, mulC_if, hsl, vs', t1, t2, e1, e2, e3]
      simp only [addC_if, if_bind, m0, m1, m2, reduce_toNat, hsl, e1, e2, e3]
      have hp1 : (seg + 1) * sl = seg * sl + sl := by ring
      have hp2 : (seg + 2) * sl = seg * sl + 2 * sl := by ring
      by_cases hd : prof = .debug
      · simp only [hd, true_and]
        by_cases c1 : 2 ^ 64 ≤ r1 * sl
        · have ho : overflow := .inl c1
          rw [if_pos ho]
          split_ifs <;> rfl
        by_cases c2 : 2 ^ 64 ≤ r2 * sl
        · have ho : overflow := .inr (.inl c2)
          rw [if_pos ho]
          split_ifs <;> rfl
        by_cases c3 : 2 ^ 64 ≤ r3 * sl
        · have ho : overflow := .inr (.inr (.inl c3))
          rw [if_pos ho]
          split_ifs <;> rfl
        simp only [c1, c2, c3, if_false]
        rw [Nat.mod_eq_of_lt (a := r1 * sl) (by omega), Nat.mod_eq_of_lt (a := r2 * sl) (by omega),
          Nat.mod_eq_of_lt (a := r3 * sl) (by omega)]
        by_cases ho : overflow
        · rw [if_pos ho]
          have ho' : 2 ^ 64 ≤ seg * sl + r1 * sl / 2 ^ 32 ∨ 2 ^ 64 ≤ (seg + 1) * sl + r2 * sl / 2 ^ 32 ∨
              2 ^ 64 ≤ (seg + 2) * sl + r3 * sl / 2 ^ 32 := by
            rcases ho with h | h | h | h
            · exact absurd h c1
            · exact absurd h c2
            · exact absurd h c3
            · exact h
          split_ifs with d1 d2 d3 d4 d5 d6 <;> first | rfl | (exfalso; rcases ho' with h | h | h <;> omega)
        · rw [if_neg ho]
          have n1 : ¬ 2 ^ 64 ≤ seg * sl + r1 * sl / 2 ^ 32 := fun h => ho (.inr (.inr (.inr (.inl h))))
          have n2 : ¬ 2 ^ 64 ≤ (seg + 1) * sl + r2 * sl / 2 ^ 32 := fun h => ho (.inr (.inr (.inr (.inr (.inl h)))))
          have n3 : ¬ 2 ^ 64 ≤ (seg + 2) * sl + r3 * sl / 2 ^ 32 := fun h => ho (.inr (.inr (.inr (.inr (.inr h)))))
          rw [Nat.mod_eq_of_lt (a := seg * sl) (by omega), Nat.mod_eq_of_lt (a := (seg + 1) * sl) (by omega),
            Nat.mod_eq_of_lt (a := (seg + 2) * sl) (by omega)]
          rw [if_neg (by omega), if_neg n1, if_neg (by omega), if_neg n2, if_neg (by omega), if_neg n3]
      · simp only [hd, false_and, if_false]
    unfold Fuse.containsC
    simp only [show mix key f.seed = h from rfl, hh, if_bind, q0, q1, q2]
    rfl
  rw [key']
  constructor
  · rintro (hb | hb)
    · rw [if_pos hb]
    · split_ifs
      · rfl
      · rw [rd3 f.fingerprints _ _ _ fun a b c => decide ((h ^^^ (h >>> 32)).setWidth w = a ^^^ b ^^^ c), if_neg (by omega)]
  · intro hb
    rw [if_neg (fun h => hb (.inl h)), rd3 f.fingerprints _ _ _ fun a b c => decide ((h ^^^ (h >>> 32)).setWidth w = a ^^^ b ^^^ c),
      if_pos (by omega)]

/-! ## Non-vacuity -/

/-- A document that loads as an Xor8 filter in which some lookup panics. -/
example : ∃ f, Xor.fromJson 8 (.obj [("block_length", .num 5), ("fingerprints", .arr [.num 255, .num 0]),
      ("seed", .num 0xffffffffffffffff)]) = .ok f ∧ ∃ key, f.containsC .release key = .panic :=
  ⟨⟨0xffffffffffffffff#64, 5, [255#8, 0#8]⟩, by rfl, (C85_xor_safe 8 .release _ (by norm_num)).2 (by simp)⟩

/-- A document that loads as a BinaryFuse16 filter of one segment of 4 with the 12 fingerprints that needs: safe. -/
example : ∃ f, BinaryFuse.fromJson 16 (.arr [.num 7, .num 4, .num 3, .num 4, .arr (List.replicate 12 (.num 65535))]) = .ok f ∧
    ∀ key, ∃ b, f.containsC .debug key = .ok b :=
  ⟨⟨7#64, ⟨4#32, 3#32, 4#32⟩, List.replicate 12 65535#16⟩, by rfl,
    (C85_binary_fuse_safe 16 _ 2 1 (by omega) (by rfl) (by rfl) (by rfl) (by norm_num) .debug).2 (by simp)⟩

/-- A fingerprint that does not fit its type, or a missing field, is an error. -/
example : BinaryFuse.fromJson 8 (.arr [.num 7, .num 4, .num 3, .num 4, .arr [.num 256]]) = .err .json ∧
    Fuse.fromJson 8 (.obj [("seed", .num 1), ("fingerprints", .arr [])]) = .err .json := by
  constructor <;> rfl

end Chalamet
