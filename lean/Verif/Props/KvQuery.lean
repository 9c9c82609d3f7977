import Verif.Props.Hash
import Verif.Props.Filter
import Verif.Lemmas.Query

/-!
# Keyword queries: C07
-/

namespace Chalamet
open Spec

/-- Slots of a key for parameters whose geometry the constructor computed. -/
theorem getHashEvals_ok (prof : Profile) {size segExp cap0 : Nat} {lay : Layout} (hlay : bfLayout size segExp cap0 = .ok lay)
    {fp : FilterParams} (hg : fp.geom = lay.geom) (hs : fp.seed.length = 32) (key : Key) :
    ∃ i j k, fp.getHashEvals prof key = .ok [i, j, k] ∧ i < lay.arrayLen ∧ j < lay.arrayLen ∧
      k < lay.arrayLen ∧ i ≠ j ∧ i ≠ k ∧ j ≠ k := by
  obtain ⟨h, hh⟩ := mix256_total hs key
  obtain ⟨s, _, hw⟩ := bfLayout_wf hlay
  obtain ⟨l0, l1, l2, d1, d2, d3⟩ := hashOfHash_lt hw h
  refine ⟨_, _, _, ?_, l0, l1, l2, d1, d2, d3⟩
  unfold FilterParams.getHashEvals BinaryFuseP32.hashEval
  rw [hh, hg, Res.bind_ok, hashOfHashC_ok hw]
  rfl

/-- **C07 (outcome).** With unused parameters of the right height, a keyword query always succeeds, for
every key, and differs from the secret mask by exactly `D = 2^(32-b)` (mod `2^32`) at the three slots of
the key. -/
theorem C07_kv_query_outcome (prof : Profile) (size segExp cap0 : Nat) (lay : Layout)
    (hlay : bfLayout size segExp cap0 = .ok lay) (fp : FilterParams) (hg : fp.geom = lay.geom)
    (hs : fp.seed.length = 32) (qp : QueryParams FilterParams) (hb : qp.plaintextBits ≤ 31)
    (hfp : qp.extraParams = some fp) (hu : qp.used = false) (hl : qp.lhs.length = lay.arrayLen)
    (key : Key) :
    ∃ slots q, fp.getHashEvals prof key = .ok slots ∧ slots.length = 3 ∧ slots.Nodup ∧
      (∀ s ∈ slots, s < lay.arrayLen) ∧
      (qp.generateKvQuery prof key).2 = .ok q ∧ q.length = lay.arrayLen ∧
      ∀ k < lay.arrayLen, q.getD k 0#32 = qp.lhs.getD k 0#32 +
        (if k ∈ slots then BitVec.ofNat 32 (2 ^ (32 - qp.plaintextBits)) else 0#32) := by
  obtain ⟨i, j, k, hev, hi, hj, hk, d1, d2, d3⟩ := getHashEvals_ok prof hlay hg hs key
  have hlt : ∀ s ∈ [i, j, k], s < lay.arrayLen := by
    intro s hs
    simp only [List.mem_cons, List.not_mem_nil, or_false] at hs
    rcases hs with rfl | rfl | rfl <;> assumption
  have hnd : [i, j, k].Nodup := by simp [d1, d2, d3]
  obtain ⟨q, hq, hql, hqk⟩ := addAt_spec (BitVec.ofNat 32 (2 ^ (32 - qp.plaintextBits))) [i, j, k]
    qp.lhs (by rw [hl]; exact hlt)
  refine ⟨[i, j, k], q, hev, rfl, hnd, hlt, ?_, by rw [hql, hl], ?_⟩
  · rw [kvQuery_fresh hu, kvQueryBody_eq hb hfp hev]
    exact hq
  · intro x hx
    rw [hqk x (by rw [hl]; exact hx)]
    congr 1
    by_cases hm : x ∈ [i, j, k]
    · rw [if_pos hm, List.count_eq_one_of_mem hnd hm]
      simp
    · rw [if_neg hm, List.count_eq_zero_of_not_mem hm]
      simp

/-- **C07.** For every key, the map from masks of the right height to queries is a bijection: every
vector is the query for exactly one mask. So when the mask is uniform (independently of the key), so is
the query, whatever the key. -/
theorem C07_kv_query_bijection (prof : Profile) (size segExp cap0 : Nat) (lay : Layout)
    (hlay : bfLayout size segExp cap0 = .ok lay) (fp : FilterParams) (hg : fp.geom = lay.geom)
    (hs : fp.seed.length = 32) (qp : QueryParams FilterParams) (hb : qp.plaintextBits ≤ 31)
    (hfp : qp.extraParams = some fp) (hu : qp.used = false) (key : Key)
    (q : List U32) (hq : q.length = lay.arrayLen) :
    ∃! mask : List U32, mask.length = lay.arrayLen ∧
      (QueryParams.generateKvQuery prof { qp with lhs := mask } key).2 = .ok q := by
  have out := fun mask (hl : mask.length = lay.arrayLen) =>
    C07_kv_query_outcome prof size segExp cap0 lay hlay fp hg hs { qp with lhs := mask } hb hfp hu hl key
  obtain ⟨i, j, k, hev, _⟩ := getHashEvals_ok prof hlay hg hs key
  let mask := (List.range lay.arrayLen).map fun x => q.getD x 0#32 -
    (if x ∈ [i, j, k] then BitVec.ofNat 32 (2 ^ (32 - qp.plaintextBits)) else 0#32)
  have hml : mask.length = lay.arrayLen := by simp [mask]
  refine ⟨mask, ⟨hml, ?_⟩, ?_⟩
  · obtain ⟨slots, q', h1, _, _, _, h5, h6, h7⟩ := out mask hml
    rw [hev] at h1
    cases h1
    rw [h5]
    congr 1
    apply ext_getD (by rw [h6, hq])
    intro x hx
    rw [hq] at hx
    rw [h7 x hx]
    simp only
    have : mask.getD x 0#32 = q.getD x 0#32 -
        (if x ∈ [i, j, k] then BitVec.ofNat 32 (2 ^ (32 - qp.plaintextBits)) else 0#32) := by
      simp [mask, List.getD_eq_getElem?_getD, hx]
    rw [this, BitVec.sub_add_cancel]
  · rintro m ⟨hl, hmq⟩
    obtain ⟨slots, q', h1, _, _, _, h5, h6, h7⟩ := out m hl
    rw [hev] at h1
    cases h1
    rw [h5] at hmq
    cases hmq
    apply ext_getD (by rw [hl, hml])
    intro x hx
    rw [hml] at hx
    have h := h7 x hx
    simp only at h
    have : mask.getD x 0#32 = q.getD x 0#32 -
        (if x ∈ [i, j, k] then BitVec.ofNat 32 (2 ^ (32 - qp.plaintextBits)) else 0#32) := by
      simp [mask, List.getD_eq_getElem?_getD, hx]
    rw [this, h, BitVec.add_sub_cancel]

/-- Non-vacuity of C07: a layout for three keys, a 32-byte seed, and the query for a mask of all-ones
(where the index scheme would refuse). -/
example : ∃ lay, bfLayout 3 3 16 = .ok lay ∧ 0 < lay.arrayLen ∧
    ∃ q, (QueryParams.generateKvQuery .debug
      { lhs := List.replicate lay.arrayLen (BitVec.allOnes 32), rhs := [], elemSize := 8,
        plaintextBits := 8, extraParams := some { seed := exSeed, geom := lay.geom }, used := false }
      [1#64, 2#64, 3#64, 4#64]).2 = .ok q := by
  obtain ⟨lay, hlay⟩ : ∃ lay, bfLayout 3 3 16 = .ok lay := ⟨_, rfl⟩
  refine ⟨lay, hlay, ?_, ?_⟩
  · cases hlay; decide
  · obtain ⟨_, q, _, _, _, _, h, _⟩ := C07_kv_query_outcome .debug 3 3 16 lay hlay
      { seed := exSeed, geom := lay.geom } rfl (show exSeed.length = 32 by decide)
      { lhs := List.replicate lay.arrayLen (BitVec.allOnes 32), rhs := [], elemSize := 8,
        plaintextBits := 8, extraParams := some { seed := exSeed, geom := lay.geom }, used := false }
      (show 8 ≤ 31 by decide) rfl rfl (by simp) [1#64, 2#64, 3#64, 4#64]
    exact ⟨q, h⟩

end Chalamet
