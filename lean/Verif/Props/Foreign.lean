import Verif.Props.KvQuery

/-!
# Keyword queries with arbitrary filter parameters: C73

A client takes the filter parameters from the server. Nothing checks them; this is what a query is for every
value of the three geometry fields.
-/

namespace Chalamet
open Spec

theorem addAt_panic (d : U32) (slots : List Nat) (l : List U32) (h : ∃ s ∈ slots, l.length ≤ s) :
    foldRes (addAtStep d) l slots = .panic := by
  induction slots generalizing l with
  | nil => simp at h
  | cons a as ih =>
    rw [foldRes_cons]
    by_cases ha : l.length ≤ a
    · unfold addAtStep
      rw [rd_panic ha]
      rfl
    · unfold addAtStep
      rw [rd_ok (by omega), Res.bind_ok, wr_ok (by omega), Res.bind_ok]
      apply ih
      obtain ⟨s, hs, hl⟩ := h
      rcases List.mem_cons.1 hs with rfl | hs
      · exact absurd hl ha
      · exact ⟨s, hs, by simpa using hl⟩

theorem hashOfHash_nat (h : U64) (g : Geom) :
    (hashOfHash h g).1.toNat = h.toNat * g.segmentCountLength.toNat / 2 ^ 64 ∧
    (hashOfHash h g).2.1.toNat =
      (h.toNat * g.segmentCountLength.toNat / 2 ^ 64 + g.segmentLength.toNat) % 2 ^ 32 ^^^
        (h.toNat / 2 ^ 18 % 2 ^ 32 &&& g.segmentLengthMask.toNat) ∧
    (hashOfHash h g).2.2.toNat =
      (h.toNat * g.segmentCountLength.toNat / 2 ^ 64 + 2 * g.segmentLength.toNat) % 2 ^ 32 ^^^
        (h.toNat % 2 ^ 32 &&& g.segmentLengthMask.toNat) := by
  have hlt : h.toNat * g.segmentCountLength.toNat / 2 ^ 64 < 2 ^ 32 := by
    apply Nat.div_lt_of_lt_mul
    have h1 := h.isLt
    have h2 := g.segmentCountLength.isLt
    calc h.toNat * g.segmentCountLength.toNat ≤ h.toNat * 2 ^ 32 := Nat.mul_le_mul_left _ (by omega)
      _ < 2 ^ 64 * 2 ^ 32 := Nat.mul_lt_mul_of_pos_right h1 (by omega)
  have h0 : (hashOfHash h g).1.toNat = h.toNat * g.segmentCountLength.toNat / 2 ^ 64 := by
    simp only [hashOfHash, BitVec.toNat_setWidth, BitVec.toNat_ofNat]
    rw [Nat.mod_eq_of_lt (a := h.toNat * _ / 2 ^ 64) (by omega), Nat.mod_eq_of_lt hlt]
  refine ⟨h0, ?_, ?_⟩
  · show (((hashOfHash h g).1 + g.segmentLength) ^^^ _).toNat = _
    rw [BitVec.toNat_xor, BitVec.toNat_add, h0, BitVec.toNat_and, BitVec.toNat_setWidth, BitVec.toNat_ushiftRight,
      Nat.shiftRight_eq_div_pow]
  · show (((hashOfHash h g).1 + g.segmentLength + g.segmentLength) ^^^ _).toNat = _
    rw [BitVec.toNat_xor, BitVec.toNat_add, BitVec.toNat_add, h0, BitVec.toNat_and, BitVec.toNat_setWidth]
    congr 1
    omega

/-- **C73.** With unused parameters (`b ≤ 31`) holding *any* filter parameters, for every key: let `h` be the hash of
the key and `s0`, `s1`, `s2` the three positions computed from `h` and the parameters. The object is spent in
all cases. The call panics exactly when one of the positions is beyond the mask or, in debug builds, when
`s0 + 2 * segment_length` does not fit 32 bits. Otherwise it returns the mask with `D` added once for every
occurrence of a position among the three. -/
theorem C73_any_filter_params (prof : Profile) (qp : QueryParams FilterParams) (fp : FilterParams)
    (hb : qp.plaintextBits ≤ 31) (hu : qp.used = false) (hf : qp.extraParams = some fp)
    (hs : fp.seed.length = 32) (key : Key) :
    ∃ h : U64, mix256 key fp.seed = .ok h ∧
      let s0 := h.toNat * fp.geom.segmentCountLength.toNat / 2 ^ 64
      let s1 := (s0 + fp.geom.segmentLength.toNat) % 2 ^ 32 ^^^
        (h.toNat / 2 ^ 18 % 2 ^ 32 &&& fp.geom.segmentLengthMask.toNat)
      let s2 := (s0 + 2 * fp.geom.segmentLength.toNat) % 2 ^ 32 ^^^
        (h.toNat % 2 ^ 32 &&& fp.geom.segmentLengthMask.toNat)
      let bad := (prof = .debug ∧ 2 ^ 32 ≤ s0 + 2 * fp.geom.segmentLength.toNat) ∨
        qp.lhs.length ≤ s0 ∨ qp.lhs.length ≤ s1 ∨ qp.lhs.length ≤ s2
      (qp.generateKvQuery prof key).1 = { qp with used := true } ∧
      (bad → (qp.generateKvQuery prof key).2 = .panic) ∧
      (¬ bad → ∃ q, (qp.generateKvQuery prof key).2 = .ok q ∧ q.length = qp.lhs.length ∧
        ∀ k < qp.lhs.length, q.getD k 0#32 = qp.lhs.getD k 0#32 +
          BitVec.ofNat 32 (2 ^ (32 - qp.plaintextBits)) * BitVec.ofNat 32 ([s0, s1, s2].count k)) := by
  obtain ⟨h, hh⟩ := mix256_total hs key
  refine ⟨h, hh, ?_⟩
  intro s0 s1 s2 bad
  obtain ⟨e0, e1, e2⟩ := hashOfHash_nat h fp.geom
  have hlt := (hashOfHash h fp.geom).1.isLt
  rw [e0] at hlt
  have hfit : ¬ (prof = .debug ∧ 2 ^ 32 ≤ s0 + 2 * fp.geom.segmentLength.toNat) →
      fp.getHashEvals prof key = .ok [s0, s1, s2] := by
    intro hn
    have : hashOfHashC prof h fp.geom = .ok (hashOfHash h fp.geom) := by
      cases prof with
      | release => rfl
      | debug =>
        apply hashOfHashC_of_le
        rw [e0]
        by_contra hc
        exact hn ⟨rfl, by simp only [s0]; omega⟩
    unfold FilterParams.getHashEvals BinaryFuseP32.hashEval
    rw [hh, Res.bind_ok, this, Res.bind_ok]
    show Res.ok [(hashOfHash h fp.geom).1.toNat, (hashOfHash h fp.geom).2.1.toNat,
      (hashOfHash h fp.geom).2.2.toNat] = _
    rw [e0, e1, e2]
  have hover : (prof = .debug ∧ 2 ^ 32 ≤ s0 + 2 * fp.geom.segmentLength.toNat) →
      fp.getHashEvals prof key = .panic := by
    rintro ⟨rfl, hge⟩
    unfold FilterParams.getHashEvals BinaryFuseP32.hashEval
    rw [hh, Res.bind_ok]
    have : hashOfHashC .debug h fp.geom = .panic := by
      unfold hashOfHashC
      have ee : (hashOfHash h fp.geom).1 =
        (BitVec.ofNat 64 ((h.toNat * fp.geom.segmentCountLength.toNat) / 2 ^ 64)).setWidth 32 := rfl
      simp only
      rw [← ee]
      by_cases h1 : (hashOfHash h fp.geom).1.toNat + fp.geom.segmentLength.toNat < 2 ^ 32
      · rw [addC_ok h1, Res.bind_ok]
        unfold addC
        simp only
        rw [if_neg]
        · rfl
        · rw [BitVec.toNat_add, Nat.mod_eq_of_lt h1, e0]
          simp only [s0] at hge
          omega
      · unfold addC
        simp only
        rw [if_neg h1]
        rfl
    rw [this]
    rfl
  refine ⟨by rw [kvQuery_fresh hu], ?_, ?_⟩
  · intro hbad
    rw [kvQuery_fresh hu]
    show kvQueryBody prof qp key = .panic
    by_cases ho : prof = .debug ∧ 2 ^ 32 ≤ s0 + 2 * fp.geom.segmentLength.toNat
    · unfold kvQueryBody
      rw [getRoundingFactor_ok hb, Res.bind_ok, hf]
      simp only
      rw [hover ho]
      rfl
    · rw [kvQueryBody_eq hb hf (hfit ho)]
      apply addAt_panic
      rcases hbad with hb' | hb' | hb' | hb'
      · exact absurd hb' ho
      · exact ⟨s0, by simp, hb'⟩
      · exact ⟨s1, by simp, hb'⟩
      · exact ⟨s2, by simp, hb'⟩
  · intro hgood
    simp only [bad, not_or, Nat.not_le] at hgood
    obtain ⟨g0, g1, g2, g3⟩ := hgood
    obtain ⟨q, hq, hql, hqk⟩ := addAt_spec (BitVec.ofNat 32 (2 ^ (32 - qp.plaintextBits))) [s0, s1, s2]
      qp.lhs (by
        intro s hs
        simp only [List.mem_cons, List.not_mem_nil, or_false] at hs
        rcases hs with rfl | rfl | rfl <;> assumption)
    refine ⟨q, ?_, hql, fun k hk => ?_⟩
    · rw [kvQuery_fresh hu, kvQueryBody_eq hb hf (hfit g0)]
      exact hq
    · rw [hqk k hk]

/-- **C73 (hiding).** With any filter parameters, for every key whose query does not panic, every vector of the height of
the mask is the query for exactly one mask. So filter parameters chosen by a hostile server cannot make a
query depend on the key when masks are uniform: all they can do is make the call panic for some keys. -/
theorem C73_any_params_bijection (prof : Profile) (qp : QueryParams FilterParams) (fp : FilterParams)
    (hb : qp.plaintextBits ≤ 31) (hu : qp.used = false) (hf : qp.extraParams = some fp)
    (hs : fp.seed.length = 32) (key : Key) (hok : (qp.generateKvQuery prof key).2 ≠ .panic)
    (q : List U32) (hq : q.length = qp.lhs.length) :
    ∃! mask : List U32, mask.length = qp.lhs.length ∧
      (QueryParams.generateKvQuery prof { qp with lhs := mask } key).2 = .ok q := by
  obtain ⟨h, hh, hrest⟩ := C73_any_filter_params prof qp fp hb hu hf hs key
  have hgood := fun hbad => hok (hrest.2.1 hbad)
  have out : ∀ mask : List U32, mask.length = qp.lhs.length → ∃ q',
      (QueryParams.generateKvQuery prof { qp with lhs := mask } key).2 = .ok q' ∧ q'.length = qp.lhs.length ∧
      ∀ k < qp.lhs.length, q'.getD k 0#32 = mask.getD k 0#32 + BitVec.ofNat 32 (2 ^ (32 - qp.plaintextBits)) *
        BitVec.ofNat 32 (List.count k [h.toNat * fp.geom.segmentCountLength.toNat / 2 ^ 64,
          (h.toNat * fp.geom.segmentCountLength.toNat / 2 ^ 64 + fp.geom.segmentLength.toNat) % 2 ^ 32 ^^^
            (h.toNat / 2 ^ 18 % 2 ^ 32 &&& fp.geom.segmentLengthMask.toNat),
          (h.toNat * fp.geom.segmentCountLength.toNat / 2 ^ 64 + 2 * fp.geom.segmentLength.toNat) % 2 ^ 32 ^^^
            (h.toNat % 2 ^ 32 &&& fp.geom.segmentLengthMask.toNat)]) := by
    intro mask hm
    obtain ⟨h', hh', hr⟩ := C73_any_filter_params prof { qp with lhs := mask } fp hb hu hf hs key
    rw [hh] at hh'
    cases hh'
    have := hr.2.2
    simp only [hm] at this
    exact this hgood
  generalize hlist : [h.toNat * fp.geom.segmentCountLength.toNat / 2 ^ 64,
      (h.toNat * fp.geom.segmentCountLength.toNat / 2 ^ 64 + fp.geom.segmentLength.toNat) % 2 ^ 32 ^^^
        (h.toNat / 2 ^ 18 % 2 ^ 32 &&& fp.geom.segmentLengthMask.toNat),
      (h.toNat * fp.geom.segmentCountLength.toNat / 2 ^ 64 + 2 * fp.geom.segmentLength.toNat) % 2 ^ 32 ^^^
        (h.toNat % 2 ^ 32 &&& fp.geom.segmentLengthMask.toNat)] = slots at out
  generalize BitVec.ofNat 32 (2 ^ (32 - qp.plaintextBits)) = D at out
  let mask := (List.range qp.lhs.length).map fun x => q.getD x 0#32 - D * BitVec.ofNat 32 (slots.count x)
  have hml : mask.length = qp.lhs.length := by simp [mask]
  refine ⟨mask, ⟨hml, ?_⟩, ?_⟩
  · obtain ⟨q', h5, h6, h7⟩ := out mask hml
    rw [h5]
    congr 1
    apply ext_getD (by rw [h6, hq])
    intro k hk
    rw [hq] at hk
    rw [h7 k hk, getD_lt (by omega : k < mask.length)]
    simp [mask]
  · rintro mask' ⟨hl', hq'⟩
    obtain ⟨q', h5, h6, h7⟩ := out mask' hl'
    rw [hq'] at h5
    cases h5
    apply ext_getD (by rw [hl', hml])
    intro k hk
    rw [hml] at hk
    rw [getD_lt (by omega : k < mask.length)]
    simp only [mask, List.getElem_map, List.getElem_range]
    rw [h7 k hk]
    simp

/-- An unused object with a mask of two words, `b = 4`, and the given geometry. -/
def exForeign (a m c : U32) : QueryParams FilterParams :=
  { lhs := [10#32, 20#32], rhs := [], elemSize := 8, plaintextBits := 4,
    extraParams := some { seed := List.replicate 32 0#8, geom := ⟨a, m, c⟩ }, used := false }

/-- Concrete cases. All fields zero: every key gives `3 * D` at position 0. Segment length 1 and mask 3: one key panics,
another does not. Segment length `2^31`: a query that panics in a debug build and succeeds in a release build. -/
example :
    ((exForeign 0#32 0#32 0#32).generateKvQuery .debug [1#64, 2#64, 3#64, 4#64]).2 =
      .ok [0x3000000a#32, 20#32] ∧
    ((exForeign 1#32 3#32 0#32).generateKvQuery .debug [1#64, 2#64, 3#64, 4#64]).2 = .panic ∧
    ((exForeign 1#32 3#32 0#32).generateKvQuery .debug [2#64, 2#64, 3#64, 4#64]).2 ≠ .panic ∧
    ((exForeign 0x80000000#32 0x80000000#32 0#32).generateKvQuery .debug [3#64, 2#64, 3#64, 4#64]).2 = .panic ∧
    ((exForeign 0x80000000#32 0x80000000#32 0#32).generateKvQuery .release [3#64, 2#64, 3#64, 4#64]).2 ≠
      .panic := by
  decide +kernel

end Chalamet
