import Verif.Model.BFuse
import Mathlib.Data.BitVec
import Mathlib.Tactic.Ring
import Mathlib.Tactic.Linarith

/-! Hashing and geometry (helper lemmas). -/

namespace Chalamet

/-- Undoing an xor-shift. -/
theorem unxorshift (x : U64) (n : Nat) (h : 64 ≤ 3 * n) :
    (x ^^^ (x >>> n)) ^^^ ((x ^^^ (x >>> n)) >>> n) ^^^ ((x ^^^ (x >>> n)) >>> (2 * n)) = x := by
  ext i hi
  simp only [BitVec.getElem_xor, BitVec.getElem_ushiftRight, BitVec.getLsbD_xor,
    BitVec.getLsbD_ushiftRight]
  have e1 : n + (n + i) = 2 * n + i := by omega
  have e2 : x.getLsbD (n + (2 * n + i)) = false := BitVec.getLsbD_of_ge _ _ (by omega)
  rw [e1, e2]
  cases x[i] <;> cases x.getLsbD (n + i) <;> cases x.getLsbD (2 * n + i) <;> rfl

theorem xorshift_inj {n : Nat} (h : 64 ≤ 3 * n) {x y : U64} (e : x ^^^ (x >>> n) = y ^^^ (y >>> n)) :
    x = y := by
  rw [← unxorshift x n h, e, unxorshift y n h]

theorem xorshift_surj {n : Nat} (h : 64 ≤ 3 * n) (y : U64) :
    ∃ x : U64, x ^^^ (x >>> n) = y := by
  refine ⟨y ^^^ (y >>> n) ^^^ (y >>> (2 * n)), ?_⟩
  ext i hi
  simp only [BitVec.getElem_xor, BitVec.getElem_ushiftRight, BitVec.getLsbD_xor,
    BitVec.getLsbD_ushiftRight]
  have e1 : n + (n + i) = 2 * n + i := by omega
  have e2 : y.getLsbD (2 * n + (n + i)) = false := BitVec.getLsbD_of_ge _ _ (by omega)
  rw [e1, e2]
  cases y[i] <;> cases y.getLsbD (n + i) <;> cases y.getLsbD (2 * n + i) <;> rfl

theorem mul_inj_of_inv {c d : U64} (h : c * d = 1#64) {x y : U64} (e : x * c = y * c) : x = y := by
  have := congrArg (· * d) e
  simpa [BitVec.mul_assoc, h] using this

theorem mul_surj_of_inv {c d : U64} (h : c * d = 1#64) (y : U64) : ∃ x : U64, x * c = y :=
  ⟨y * d, by rw [BitVec.mul_assoc, BitVec.mul_comm d c, h, BitVec.mul_one]⟩

theorem mix64_inj {x y : U64} (h : mix64 x = mix64 y) : x = y := by
  unfold mix64 at h
  have h1 := xorshift_inj (by omega) h
  have h2 := mul_inj_of_inv (d := 0x9cb4b2f8129337db#64) (by decide +kernel) h1
  have h3 := xorshift_inj (by omega) h2
  have h4 := mul_inj_of_inv (d := 0x4f74430c22a54005#64) (by decide +kernel) h3
  exact xorshift_inj (by omega) h4

theorem mix64_surj (y : U64) : ∃ x, mix64 x = y := by
  obtain ⟨a, rfl⟩ := xorshift_surj (n := 33) (by omega) y
  obtain ⟨b, rfl⟩ := mul_surj_of_inv (c := 0xc4ceb9fe1a85ec53#64) (d := 0x9cb4b2f8129337db#64)
    (by decide +kernel) a
  obtain ⟨c, rfl⟩ := xorshift_surj (n := 33) (by omega) b
  obtain ⟨d, rfl⟩ := mul_surj_of_inv (c := 0xff51afd7ed558ccd#64) (d := 0x4f74430c22a54005#64)
    (by decide +kernel) c
  obtain ⟨e, rfl⟩ := xorshift_surj (n := 33) (by omega) d
  exact ⟨e, rfl⟩

theorem splitmix_out_inj {x y : U64} (h : (splitmix64 x).2 = (splitmix64 y).2) : x = y := by
  unfold splitmix64 at h
  have h1 := xorshift_inj (n := 31) (by omega) h
  have h2 := mul_inj_of_inv (d := 0x319642b2d24d8ec3#64) (by decide +kernel) h1
  have h3 := xorshift_inj (n := 27) (by omega) h2
  have h4 := mul_inj_of_inv (d := 0x96de1b173f119089#64) (by decide +kernel) h3
  have h5 := xorshift_inj (n := 30) (by omega) h4
  have := congrArg (· - 0x9e3779b97f4a7c15#64) h5
  simpa using this

/-! ### Geometry -/

/-- `arrayLen` slots in segments of `2^s`, `k` of which can hold a first slot. -/
structure Geom.WF (g : Geom) (len s k : Nat) : Prop where
  sl : g.segmentLength.toNat = 2 ^ s
  mask : g.segmentLengthMask.toNat = 2 ^ s - 1
  scl : g.segmentCountLength.toNat = k * 2 ^ s
  kpos : 0 < k
  len_eq : (k + 2) * 2 ^ s = len
  len_lt : len < 2 ^ 32

theorem segmentLength_pow (size segExp : Nat) : ∃ s, s ≤ 18 ∧ segmentLength size segExp = 2 ^ s := by
  unfold segmentLength
  split
  · exact ⟨2, by omega, rfl⟩
  · rcases Nat.le_total segExp 18 with h | h
    · refine ⟨segExp, h, Nat.min_eq_left ?_⟩
      calc 2 ^ segExp ≤ 2 ^ 18 := Nat.pow_le_pow_right (by omega) h
        _ = 262144 := rfl
    · refine ⟨18, le_refl _, Nat.min_eq_right ?_⟩
      calc 262144 = 2 ^ 18 := rfl
        _ ≤ 2 ^ segExp := Nat.pow_le_pow_right (by omega) h

theorem wf_mk {s k : Nat} (hs : s ≤ 18) (hk : 0 < k) (hlen : (k + 3 - 1) * 2 ^ s < 2 ^ 32) :
    Geom.WF { segmentLength := BitVec.ofNat 32 (2 ^ s)
              segmentLengthMask := BitVec.ofNat 32 (2 ^ s - 1)
              segmentCountLength := BitVec.ofNat 32 (k * 2 ^ s) } ((k + 3 - 1) * 2 ^ s) s k := by
  have hpos := Nat.two_pow_pos s
  have h18 : 2 ^ s ≤ 2 ^ 18 := Nat.pow_le_pow_right (by omega) hs
  have e : (k + 3 - 1) * 2 ^ s = k * 2 ^ s + 2 * 2 ^ s := by
    rw [show k + 3 - 1 = k + 2 by omega, Nat.add_mul]
  refine ⟨?_, ?_, ?_, hk, rfl, hlen⟩
  · rw [BitVec.toNat_ofNat]; exact Nat.mod_eq_of_lt (by omega)
  · rw [BitVec.toNat_ofNat]; exact Nat.mod_eq_of_lt (by omega)
  · rw [BitVec.toNat_ofNat]; exact Nat.mod_eq_of_lt (by omega)

theorem bfLayout_wf {size segExp cap0 : Nat} {lay : Layout}
    (h : bfLayout size segExp cap0 = .ok lay) :
    ∃ s, s ≤ 18 ∧ lay.geom.WF lay.arrayLen s lay.segmentCount := by
  obtain ⟨s, hs, hsl⟩ := segmentLength_pow size segExp
  unfold bfLayout at h
  simp only [hsl] at h
  generalize (if size > 1 then cap0 else 0) = cap at h
  generalize ((cap + 2 ^ s - 1) / 2 ^ s * 2 ^ s + 2 ^ s - 1) / 2 ^ s = prop at h
  generalize hk : (if prop < 3 then 1 else prop - (3 - 1)) = k at h
  have hk0 : 0 < k := by rw [← hk]; split <;> omega
  split at h
  · cases h
  · rename_i hn
    push Not at hn
    simp only [Res.ok.injEq] at h
    subst h
    exact ⟨s, hs, wf_mk hs hk0 hn.2.2⟩

theorem xor_low_div {s : Nat} (v x : U32) (m : U32) (hm : m.toNat = 2 ^ s - 1) :
    (v ^^^ (x &&& m)).toNat / 2 ^ s = v.toNat / 2 ^ s := by
  rw [BitVec.toNat_xor, BitVec.toNat_and, hm]
  apply Nat.eq_of_testBit_eq
  intro i
  rw [Nat.testBit_div_two_pow, Nat.testBit_div_two_pow, Nat.testBit_xor, Nat.testBit_and,
    Nat.testBit_two_pow_sub_one]
  have : ¬ (i + s < s) := by omega
  simp [this]

/-- The three slots of a hash lie in three consecutive segments. -/
theorem hashOfHash_segments {g : Geom} {len s k : Nat} (hg : g.WF len s k) (hash : U64) :
    (hashOfHash hash g).1.toNat / 2 ^ s < k ∧
    (hashOfHash hash g).2.1.toNat / 2 ^ s = (hashOfHash hash g).1.toNat / 2 ^ s + 1 ∧
    (hashOfHash hash g).2.2.toNat / 2 ^ s = (hashOfHash hash g).1.toNat / 2 ^ s + 2 := by
  have hpos := Nat.two_pow_pos s
  have hlt := hash.isLt
  have hlen := hg.len_lt
  have hl := hg.len_eq
  have hscl := hg.scl
  have hk := hg.kpos
  rw [Nat.add_mul] at hl
  have hkpos : 0 < k * 2 ^ s := Nat.mul_pos hk hpos
  -- the first slot
  have hhi : hash.toNat * g.segmentCountLength.toNat / 2 ^ 64 < k * 2 ^ s := by
    rw [hscl]
    apply Nat.div_lt_of_lt_mul
    exact Nat.mul_lt_mul_of_pos_right hlt hkpos
  have h0 : (hashOfHash hash g).1.toNat = hash.toNat * g.segmentCountLength.toNat / 2 ^ 64 := by
    simp only [hashOfHash, BitVec.toNat_setWidth, BitVec.toNat_ofNat]
    rw [Nat.mod_eq_of_lt (a := hash.toNat * _ / 2 ^ 64) (by omega), Nat.mod_eq_of_lt (by omega)]
  have h0lt : (hashOfHash hash g).1.toNat < k * 2 ^ s := by rw [h0]; exact hhi
  have hs1 : ((hashOfHash hash g).1 + g.segmentLength).toNat =
      (hashOfHash hash g).1.toNat + 2 ^ s := by
    rw [BitVec.toNat_add, hg.sl]; exact Nat.mod_eq_of_lt (by omega)
  have hs2 : ((hashOfHash hash g).1 + g.segmentLength + g.segmentLength).toNat =
      (hashOfHash hash g).1.toNat + 2 ^ s + 2 ^ s := by
    rw [BitVec.toNat_add, hs1, hg.sl]; exact Nat.mod_eq_of_lt (by omega)
  refine ⟨Nat.div_lt_of_lt_mul (by rw [Nat.mul_comm]; exact h0lt), ?_, ?_⟩
  · show (((hashOfHash hash g).1 + g.segmentLength) ^^^ _).toNat / 2 ^ s = _
    rw [xor_low_div _ _ _ hg.mask, hs1, Nat.add_div_right _ hpos]
  · show (((hashOfHash hash g).1 + g.segmentLength + g.segmentLength) ^^^ _).toNat / 2 ^ s = _
    rw [xor_low_div _ _ _ hg.mask, hs2, Nat.add_div_right _ hpos, Nat.add_div_right _ hpos]

theorem hashOfHash_lt {g : Geom} {len s k : Nat} (hg : g.WF len s k) (hash : U64) :
    (hashOfHash hash g).1.toNat < len ∧ (hashOfHash hash g).2.1.toNat < len ∧
    (hashOfHash hash g).2.2.toNat < len ∧
    (hashOfHash hash g).1.toNat ≠ (hashOfHash hash g).2.1.toNat ∧
    (hashOfHash hash g).1.toNat ≠ (hashOfHash hash g).2.2.toNat ∧
    (hashOfHash hash g).2.1.toNat ≠ (hashOfHash hash g).2.2.toNat := by
  obtain ⟨h0, h1, h2⟩ := hashOfHash_segments hg hash
  have hpos := Nat.two_pow_pos s
  have key : ∀ x : Nat, x / 2 ^ s < k + 2 → x < len := by
    intro x hx
    rw [← hg.len_eq]
    exact (Nat.div_lt_iff_lt_mul hpos).1 hx
  refine ⟨key _ (by omega), key _ (by omega), key _ (by omega), ?_, ?_, ?_⟩
  · intro e; rw [e] at h1; omega
  · intro e; rw [e] at h2; omega
  · intro e; rw [e] at h1; omega

/-- Without overflow the checked and the wrapping version of `hash_of_hash` agree. -/
theorem hashOfHashC_of_le {prof : Profile} {g : Geom} {hash : U64}
    (h : (hashOfHash hash g).1.toNat + g.segmentLength.toNat + g.segmentLength.toNat < 2 ^ 32) :
    hashOfHashC prof hash g = .ok (hashOfHash hash g) := by
  unfold hashOfHashC
  have e0 : (hashOfHash hash g).1 =
    (BitVec.ofNat 64 ((hash.toNat * g.segmentCountLength.toNat) / 2 ^ 64)).setWidth 32 := rfl
  simp only
  rw [← e0, addC_ok (by omega), Res.bind_ok,
    addC_ok (by rw [BitVec.toNat_add, Nat.mod_eq_of_lt (by omega)]; omega), Res.bind_ok]
  rfl

theorem hashOfHashC_release (g : Geom) (hash : U64) :
    hashOfHashC .release hash g = .ok (hashOfHash hash g) := rfl

/-- The additions of `hash_of_hash` never overflow for a geometry of the constructor. -/
theorem hashOfHashC_ok {g : Geom} {len s k : Nat} (hg : g.WF len s k) (prof : Profile) (hash : U64) :
    hashOfHashC prof hash g = .ok (hashOfHash hash g) := by
  apply hashOfHashC_of_le
  have hpos := Nat.two_pow_pos s
  have h0 := (hashOfHash_segments hg hash).1
  rw [Nat.div_lt_iff_lt_mul hpos] at h0
  have hl := hg.len_eq
  have hlt := hg.len_lt
  rw [Nat.add_mul] at hl
  rw [hg.sl]
  omega

end Chalamet
