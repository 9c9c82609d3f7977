import Verif.Props.Query
import Verif.Props.KvQuery
import Mathlib.Algebra.BigOperators.Ring.Finset
import Mathlib.Data.Fintype.BigOperators
import Mathlib.Data.Fintype.Fin
import Mathlib.Tactic.Ring
import Mathlib.Tactic.Linarith

/-!
# C65: how often index queries fail, and what a query reveals under ideal masks

Masks are counted: `Fin m → Fin (2^32)` are all vectors of `m` words, each equally likely under an ideal
(uniform) mask. "Fraction `x` of the masks" is stated without division.
-/

namespace Chalamet
open Finset

/-! ## Counting -/

theorem card_two {N m : Nat} (P R : Fin N → Prop) [DecidablePred P] [DecidablePred R] {i j : Fin m}
    (hij : i ≠ j) :
    (univ.filter fun q : Fin m → Fin N => P (q i) ∧ R (q j)).card * (N * N) =
      (univ.filter P).card * (univ.filter R).card * N ^ m := by
  have hset : (univ.filter fun q : Fin m → Fin N => P (q i) ∧ R (q j)) =
      Fintype.piFinset fun k => if k = i then univ.filter P else if k = j then univ.filter R else univ := by
    ext q
    simp only [mem_filter, mem_univ, true_and, Fintype.mem_piFinset]
    constructor
    · rintro ⟨h1, h2⟩ k
      split
      · rename_i e; subst e; simpa using h1
      · split
        · rename_i e; subst e; simpa using h2
        · simp
    · intro h
      have h1 := h i
      have h2 := h j
      simp only [if_true, mem_filter, mem_univ, true_and] at h1
      simp only [if_neg hij.symm, if_true, mem_filter, mem_univ, true_and] at h2
      exact ⟨h1, h2⟩
  rw [hset, Fintype.card_piFinset]
  have e1 : N * N = (∏ k : Fin m, if k = i then N else 1) * ∏ k : Fin m, if k = j then N else 1 := by
    rw [prod_ite_eq' univ i, prod_ite_eq' univ j]; simp
  have e2 : (univ.filter P).card * (univ.filter R).card * N ^ m =
      (∏ k : Fin m, if k = i then (univ.filter P).card else 1) *
        (∏ k : Fin m, if k = j then (univ.filter R).card else 1) * ∏ k : Fin m, N := by
    rw [prod_ite_eq' univ i, prod_ite_eq' univ j]; simp
  rw [e1, e2, ← prod_mul_distrib, ← prod_mul_distrib, ← prod_mul_distrib, ← prod_mul_distrib]
  apply prod_congr rfl
  intro k _
  by_cases h1 : k = i
  · subst h1; simp [hij]
  · by_cases h2 : k = j
    · subst h2; simp [h1, Nat.mul_comm]
    · simp [h1, h2]

theorem card_one {N m : Nat} (P : Fin N → Prop) [DecidablePred P] (i : Fin m) :
    (univ.filter fun q : Fin m → Fin N => P (q i)).card * N = (univ.filter P).card * N ^ m := by
  have hset : (univ.filter fun q : Fin m → Fin N => P (q i)) =
      Fintype.piFinset fun k => if k = i then univ.filter P else univ := by
    ext q
    simp only [mem_filter, mem_univ, true_and, Fintype.mem_piFinset]
    constructor
    · rintro h1 k
      split
      · rename_i e; subst e; simpa using h1
      · simp
    · intro h
      have h1 := h i
      simpa using h1
  rw [hset, Fintype.card_piFinset]
  have e1 : N = (∏ k : Fin m, if k = i then N else 1) := by
    rw [prod_ite_eq' univ i]; simp
  have e2 : (univ.filter P).card * N ^ m =
      (∏ k : Fin m, if k = i then (univ.filter P).card else 1) * ∏ k : Fin m, N := by
    rw [prod_ite_eq' univ i]; simp
  rw [e2]
  refine (congrArg (_ * ·) e1).trans ?_
  rw [← prod_mul_distrib, ← prod_mul_distrib]
  apply prod_congr rfl
  intro k _
  by_cases h1 : k = i
  · subst h1; simp
  · simp [h1]

theorem card_ge {N D : Nat} (h : D ≤ N) : (univ.filter fun x : Fin N => D ≤ x.val).card = N - D := by
  have h1 := Fin.card_filter_val_lt (n := N) (m := D)
  have h2 := Finset.card_filter_add_card_filter_not (s := (univ : Finset (Fin N))) (fun x => x.val < D)
  simp only [not_lt, card_univ, Fintype.card_fin] at h2
  omega

/-! ## Index queries -/

/-- All words of a mask. -/
def maskOf {m : Nat} (t : Fin m → Fin 4294967296) : List U32 := List.ofFn fun k => BitVec.ofNat 32 (t k)

theorem maskOf_length {m : Nat} (t : Fin m → Fin 4294967296) : (maskOf t).length = m := by simp [maskOf]

theorem maskOf_get {m : Nat} (t : Fin m → Fin 4294967296) (k : Nat) (hk : k < (maskOf t).length) :
    ((maskOf t)[k]).toNat = (t ⟨k, by simpa [maskOf] using hk⟩).val := by
  simp only [maskOf, List.getElem_ofFn, BitVec.toNat_ofNat]
  exact Nat.mod_eq_of_lt (Fin.isLt _)

/-- What `generate_query(i)` yields with fresh parameters whose mask is `t`. -/
def indexOutcome (prof : Profile) (qp : QueryParams Unit) (b i : Nat) {m : Nat}
    (t : Fin m → Fin 4294967296) : Res (List U32) :=
  (QueryParams.generateIndexQuery prof { qp with lhs := maskOf t, plaintextBits := b, used := false } i).2

/-- Add `D` (mod `2^32`) at position `i`. -/
def shiftAt (D : Nat) {m : Nat} (i : Fin m) (t : Fin m → Fin 4294967296) : Fin m → Fin 4294967296 :=
  Function.update t i ⟨((t i).val + D) % 4294967296, Nat.mod_lt _ (by norm_num)⟩

theorem shiftAt_inj {D m : Nat} {i : Fin m} : Function.Injective (shiftAt D i (m := m)) := by
  intro s t h
  funext k
  have hk := congrFun h k
  unfold shiftAt at hk
  by_cases e : k = i
  · subst e
    simp only [Function.update_self, Fin.mk.injEq] at hk
    apply Fin.ext
    have h1 := (s k).isLt
    have h2 := (t k).isLt
    omega
  · simpa [Function.update_of_ne e] using hk

theorem indexOutcome_eq (prof : Profile) (qp : QueryParams Unit) {b m : Nat} (hb1 : 1 ≤ b) (hb : b ≤ 31)
    (i : Fin m) (t : Fin m → Fin 4294967296) :
    indexOutcome prof qp b i t = if (t i).val + 2 ^ (32 - b) < 4294967296 then
      .ok (maskOf (shiftAt (2 ^ (32 - b)) i t)) else .err .overflownAdd := by
  unfold indexOutcome
  have hi : i.val < (maskOf t).length := by rw [maskOf_length]; exact i.isLt
  rw [indexQuery_fresh rfl, indexQueryBody_eq hb1 hb hi]
  simp only
  rw [maskOf_get t i.val hi]
  simp only [Fin.eta]
  by_cases h : (t i).val + 2 ^ (32 - b) < 4294967296
  · rw [if_pos h, if_pos (by omega)]
    congr 1
    apply List.ext_getElem
    · simp [maskOf_length]
    · intro k h1 h2
      apply BitVec.eq_of_toNat_eq
      rw [maskOf_get _ k h2]
      have hk : k < m := by rw [maskOf_length] at h2; exact h2
      by_cases e : k = i.val
      · subst e
        rw [List.getElem_set_self, BitVec.toNat_add, maskOf_get t i.val hi, toNat_factor hb1]
        simp [shiftAt]
      · rw [List.getElem_set_ne (fun h => e h.symm), maskOf_get t k (by rw [maskOf_length]; exact hk)]
        have e' : (⟨k, hk⟩ : Fin m) ≠ i := fun h => e (congrArg Fin.val h)
        simp [shiftAt, Function.update_of_ne e']
  · rw [if_neg h, if_neg (by omega)]

open scoped Classical in
/-- **C65 (failure rate).** For `1 ≤ b ≤ 31` and any in-range index, a fraction of exactly `2^-b` of all
masks makes `generate_query` fail with the overflow error (about one in a thousand for the default 10 plaintext
bits). -/
theorem C65_failure_rate (prof : Profile) (qp : QueryParams Unit) (b m : Nat) (hb1 : 1 ≤ b) (hb : b ≤ 31)
    (i : Fin m) :
    (univ.filter fun t : Fin m → Fin 4294967296 =>
      indexOutcome prof qp b i t = .err .overflownAdd).card * 2 ^ b = (2 ^ 32) ^ m := by
  have hD : 2 ^ (32 - b) * 2 ^ b = 4294967296 := by
    rw [← Nat.pow_add, Nat.sub_add_cancel (by omega)]
  have hset : (univ.filter fun t : Fin m → Fin 4294967296 =>
      indexOutcome prof qp b i t = .err .overflownAdd) =
      univ.filter fun t : Fin m → Fin 4294967296 => 4294967296 - 2 ^ (32 - b) ≤ (t i).val := by
    ext t
    simp only [mem_filter, mem_univ, true_and]
    rw [indexOutcome_eq prof qp hb1 hb i t]
    split
    · rename_i h
      simp only [reduceCtorEq, false_iff, not_le]
      omega
    · rename_i h
      simp only [true_iff]
      omega
  have h1 := card_one (N := 4294967296) (fun x => 4294967296 - 2 ^ (32 - b) ≤ x.val) i
  rw [card_ge (Nat.sub_le _ _)] at h1
  have hle : 2 ^ (32 - b) ≤ 4294967296 := by
    have := Nat.pow_le_pow_right (n := 2) (by omega) (show 32 - b ≤ 32 by omega)
    omega
  rw [hset]
  rw [Nat.sub_sub_self hle] at h1
  have : (univ.filter fun t : Fin m → Fin 4294967296 =>
      4294967296 - 2 ^ (32 - b) ≤ (t i).val).card * 2 ^ b * 4294967296 = (2 ^ 32) ^ m * 4294967296 := by
    calc _ = (2 ^ (32 - b) * 4294967296 ^ m) * 2 ^ b := by rw [← h1]; ring
      _ = (2 ^ (32 - b) * 2 ^ b) * 4294967296 ^ m := by ring
      _ = _ := by rw [hD]; norm_num; ring
  exact Nat.eq_of_mul_eq_mul_right (by norm_num) this

/-- Vectors whose coordinate `i` is at least `D` and whose coordinate `j` is below. -/
theorem card_tell {b m : Nat} (hb1 : 1 ≤ b) (hb : b ≤ 31) {i j : Fin m} (hij : i ≠ j) :
    (univ.filter fun q : Fin m → Fin 4294967296 => 2 ^ (32 - b) ≤ (q i).val ∧
      (q j).val < 2 ^ (32 - b)).card * (2 ^ b * 2 ^ b) = (2 ^ b - 1) * (2 ^ 32) ^ m := by
  have hD : 2 ^ (32 - b) * 2 ^ b = 4294967296 := by
    rw [← Nat.pow_add, Nat.sub_add_cancel (by omega)]
  have hle : 2 ^ (32 - b) ≤ 4294967296 := by
    have := Nat.pow_le_pow_right (n := 2) (by omega) (show 32 - b ≤ 32 by omega)
    omega
  have h := card_two (N := 4294967296) (fun x => 2 ^ (32 - b) ≤ x.val) (fun x => x.val < 2 ^ (32 - b)) hij
  rw [card_ge hle, Fin.card_filter_val_lt, Nat.min_eq_right hle] at h
  have hge : 4294967296 - 2 ^ (32 - b) = (2 ^ b - 1) * 2 ^ (32 - b) := by
    rw [Nat.sub_mul, Nat.one_mul, Nat.mul_comm, hD]
  rw [hge] at h
  generalize (univ.filter fun q : Fin m → Fin 4294967296 => 2 ^ (32 - b) ≤ (q i).val ∧
      (q j).val < 2 ^ (32 - b)).card = c at h ⊢
  have hDpos := Nat.two_pow_pos (32 - b)
  have : c * (2 ^ b * 2 ^ b) * (2 ^ (32 - b) * 2 ^ (32 - b)) =
      (2 ^ b - 1) * (2 ^ 32) ^ m * (2 ^ (32 - b) * 2 ^ (32 - b)) := by
    calc _ = c * ((2 ^ (32 - b) * 2 ^ b) * (2 ^ (32 - b) * 2 ^ b)) := by ring
      _ = c * (4294967296 * 4294967296) := by rw [hD]
      _ = (2 ^ b - 1) * 2 ^ (32 - b) * 2 ^ (32 - b) * 4294967296 ^ m := h
      _ = _ := by rw [show (2 : Nat) ^ 32 = 4294967296 from rfl]; ring
  exact Nat.eq_of_mul_eq_mul_right (Nat.mul_pos hDpos hDpos) this

open scoped Classical in
/-- Number of masks for which the observation passes a test, split by the outcome. -/
theorem card_accept (prof : Profile) (qp : QueryParams Unit) {b m : Nat} (hb1 : 1 ≤ b) (hb : b ≤ 31)
    (test : Res (List U32) → Prop) (i : Fin m) :
    (univ.filter fun t : Fin m → Fin 4294967296 => test (indexOutcome prof qp b i t)).card =
      (univ.filter fun q : Fin m → Fin 4294967296 => 2 ^ (32 - b) ≤ (q i).val ∧
        test (.ok (maskOf q))).card +
      (univ.filter fun t : Fin m → Fin 4294967296 => ¬ (t i).val + 2 ^ (32 - b) < 4294967296 ∧
        test (.err .overflownAdd)).card := by
  have hD0 := Nat.two_pow_pos (32 - b)
  have hDlt : 2 ^ (32 - b) < 4294967296 := by
    have := Nat.pow_lt_pow_right (a := 2) (by omega) (show 32 - b < 32 by omega)
    omega
  have hsplit := Finset.card_filter_add_card_filter_not
    (s := univ.filter fun t : Fin m → Fin 4294967296 => test (indexOutcome prof qp b i t))
    (fun t => (t i).val + 2 ^ (32 - b) < 4294967296)
  rw [← hsplit, filter_filter, filter_filter]
  congr 1
  · rw [← card_image_of_injective _ (shiftAt_inj (D := 2 ^ (32 - b)) (i := i))]
    congr 1
    ext q
    simp only [mem_image, mem_filter, mem_univ, true_and]
    constructor
    · rintro ⟨t, ⟨h1, h2⟩, rfl⟩
      rw [indexOutcome_eq prof qp hb1 hb, if_pos h2] at h1
      refine ⟨?_, h1⟩
      simp only [shiftAt, Function.update_self, Nat.mod_eq_of_lt h2]
      omega
    · rintro ⟨h1, h2⟩
      have hq := (q i).isLt
      have e : shiftAt (2 ^ (32 - b)) i (Function.update q i ⟨(q i).val - 2 ^ (32 - b), by omega⟩) = q := by
        funext k
        unfold shiftAt
        by_cases e : k = i
        · subst e
          apply Fin.ext
          simp only [Function.update_self]
          rw [Nat.sub_add_cancel h1, Nat.mod_eq_of_lt hq]
        · simp [Function.update_of_ne e]
      have hlt : (Function.update q i ⟨(q i).val - 2 ^ (32 - b), by omega⟩ i).val + 2 ^ (32 - b) <
          4294967296 := by
        simp only [Function.update_self]
        omega
      refine ⟨Function.update q i ⟨(q i).val - 2 ^ (32 - b), by omega⟩, ⟨?_, hlt⟩, e⟩
      rw [indexOutcome_eq prof qp hb1 hb, if_pos hlt, e]
      exact h2
  · congr 1
    ext t
    simp only [mem_filter, mem_univ, true_and]
    rw [indexOutcome_eq prof qp hb1 hb, and_comm]
    constructor
    · rintro ⟨h1, h2⟩
      rw [if_neg h1] at h2
      exact ⟨h1, h2⟩
    · rintro ⟨h1, h2⟩
      rw [if_neg h1]
      exact ⟨h1, h2⟩

open scoped Classical in
/-- **C65 (upper bound on the leakage).** Whatever test a server (or anybody watching whether and what query is
sent) applies, over all masks it accepts queries for `i` at most `2^-b (1 - 2^-b)` more often than queries for
`j`: the statistical distance between the two is at most that, for ideal masks. -/
theorem C65_advantage_at_most (prof : Profile) (qp : QueryParams Unit) (b m : Nat) (hb1 : 1 ≤ b)
    (hb : b ≤ 31) (i j : Fin m) (hij : i ≠ j) (test : Res (List U32) → Prop) :
    (univ.filter fun t : Fin m → Fin 4294967296 => test (indexOutcome prof qp b i t)).card *
        (2 ^ b * 2 ^ b) ≤
      (univ.filter fun t : Fin m → Fin 4294967296 => test (indexOutcome prof qp b j t)).card *
        (2 ^ b * 2 ^ b) + (2 ^ b - 1) * (2 ^ 32) ^ m := by
  rw [card_accept prof qp hb1 hb test i, card_accept prof qp hb1 hb test j, ← card_tell hb1 hb hij]
  have he : (univ.filter fun t : Fin m → Fin 4294967296 => ¬ (t i).val + 2 ^ (32 - b) < 4294967296 ∧
        test (.err .overflownAdd)).card =
      (univ.filter fun t : Fin m → Fin 4294967296 => ¬ (t j).val + 2 ^ (32 - b) < 4294967296 ∧
        test (.err .overflownAdd)).card := by
    by_cases hT : test (.err .overflownAdd)
    · simp only [hT, and_true]
      have h1 := card_one (N := 4294967296) (fun x => ¬ x.val + 2 ^ (32 - b) < 4294967296) i
      have h2 := card_one (N := 4294967296) (fun x => ¬ x.val + 2 ^ (32 - b) < 4294967296) j
      exact Nat.eq_of_mul_eq_mul_right (by norm_num) (h1.trans h2.symm)
    · simp [hT]
  have hs : (univ.filter fun q : Fin m → Fin 4294967296 => 2 ^ (32 - b) ≤ (q i).val ∧
        test (.ok (maskOf q))).card ≤
      (univ.filter fun q : Fin m → Fin 4294967296 => 2 ^ (32 - b) ≤ (q j).val ∧
        test (.ok (maskOf q))).card +
      (univ.filter fun q : Fin m → Fin 4294967296 => 2 ^ (32 - b) ≤ (q i).val ∧
        (q j).val < 2 ^ (32 - b)).card := by
    refine le_trans (card_le_card ?_) (card_union_le _ _)
    intro q hq
    simp only [mem_union, mem_filter, mem_univ, true_and] at hq ⊢
    by_cases h : 2 ^ (32 - b) ≤ (q j).val
    · exact Or.inl ⟨h, hq.2⟩
    · exact Or.inr ⟨hq.1, by omega⟩
  rw [he]
  nlinarith [Nat.mul_le_mul_right (2 ^ b * 2 ^ b) hs]

open scoped Classical in
/-- **C65 (the leakage is real).** The test "a query was sent and its word at position `j` is below `D`" never
accepts queries for `j`, and accepts queries for any other index with exactly the maximal rate
`2^-b (1 - 2^-b)`. -/
theorem C65_advantage_attained (prof : Profile) (qp : QueryParams Unit) (b m : Nat) (hb1 : 1 ≤ b)
    (hb : b ≤ 31) (i j : Fin m) (hij : i ≠ j) :
    (∀ (t : Fin m → Fin 4294967296) q, indexOutcome prof qp b j t = .ok q →
      ¬ (q.getD j 0#32).toNat < 2 ^ (32 - b)) ∧
    (univ.filter fun t : Fin m → Fin 4294967296 => ∃ q, indexOutcome prof qp b i t = .ok q ∧
      (q.getD j 0#32).toNat < 2 ^ (32 - b)).card * (2 ^ b * 2 ^ b) = (2 ^ b - 1) * (2 ^ 32) ^ m := by
  constructor
  · intro t q h
    rw [indexOutcome_eq prof qp hb1 hb] at h
    split at h
    · rename_i hlt
      cases h
      rw [getD_lt (by rw [maskOf_length]; exact j.isLt), maskOf_get _ j.val (by rw [maskOf_length]; exact j.isLt)]
      simp only [Fin.eta, shiftAt, Function.update_self, Nat.mod_eq_of_lt hlt]
      omega
    · cases h
  · have h := card_accept prof qp hb1 hb (fun o => ∃ q, o = .ok q ∧ (q.getD j 0#32).toNat < 2 ^ (32 - b)) i
    rw [h, ← card_tell hb1 hb hij]
    congr 1
    have e2 : (univ.filter fun t : Fin m → Fin 4294967296 => ¬ (t i).val + 2 ^ (32 - b) < 4294967296 ∧
        ∃ q : List U32, (Res.err Err.overflownAdd : Res (List U32)) = .ok q ∧
          (q.getD j 0#32).toNat < 2 ^ (32 - b)).card = 0 := by
      rw [card_eq_zero, filter_eq_empty_iff]
      rintro t _ ⟨_, q, hq, _⟩
      cases hq
    rw [e2, Nat.add_zero]
    congr 1
    ext q
    simp only [mem_filter, mem_univ, true_and, and_congr_right_iff]
    intro _
    have hj : j.val < (maskOf q).length := by rw [maskOf_length]; exact j.isLt
    constructor
    · rintro ⟨q', e, hlt⟩
      cases e
      rw [getD_lt hj, maskOf_get _ _ hj] at hlt
      exact hlt
    · intro hlt
      exact ⟨_, rfl, by rw [getD_lt hj, maskOf_get _ _ hj]; exact hlt⟩

/-! ## Keyword queries -/

open scoped Classical in
/-- **C65 (keyword queries do not leak under ideal masks).** For every test on the observed outcome and every two
keys, exactly as many masks make the test accept: the outcomes for the two keys are identically distributed
when the mask is uniform. -/
theorem C65_kv_no_advantage (prof : Profile) (size segExp cap0 : Nat) (lay : Layout)
    (hlay : bfLayout size segExp cap0 = .ok lay) (fp : FilterParams) (hg : fp.geom = lay.geom)
    (hs : fp.seed.length = 32) (qp : QueryParams FilterParams) (hb : qp.plaintextBits ≤ 31)
    (hfp : qp.extraParams = some fp) (hu : qp.used = false) (k₁ k₂ : Key)
    (test : Res (List U32) → Prop) :
    (univ.filter fun t : Fin lay.arrayLen → Fin 4294967296 =>
      test (QueryParams.generateKvQuery prof { qp with lhs := maskOf t } k₁).2).card =
    (univ.filter fun t : Fin lay.arrayLen → Fin 4294967296 =>
      test (QueryParams.generateKvQuery prof { qp with lhs := maskOf t } k₂).2).card := by
  suffices h : ∀ k, (univ.filter fun t : Fin lay.arrayLen → Fin 4294967296 =>
      test (QueryParams.generateKvQuery prof { qp with lhs := maskOf t } k).2).card =
      (univ.filter fun q : Fin lay.arrayLen → Fin 4294967296 => test (.ok (maskOf q))).card by
    rw [h k₁, h k₂]
  intro k
  have hsurj : ∀ v : List U32, v.length = lay.arrayLen →
      ∃ t : Fin lay.arrayLen → Fin 4294967296, maskOf t = v := by
    intro v hv
    refine ⟨fun k => ⟨(v[k.val]'(by rw [hv]; exact k.isLt)).toNat, BitVec.isLt _⟩, ?_⟩
    apply List.ext_getElem
    · rw [maskOf_length, hv]
    · intro k h1 h2
      apply BitVec.eq_of_toNat_eq
      rw [maskOf_get _ k h1]
  have hinj : ∀ s t : Fin lay.arrayLen → Fin 4294967296, maskOf s = maskOf t → s = t := by
    intro s t h
    funext k
    apply Fin.ext
    have h1 := maskOf_get s k.val (by rw [maskOf_length]; exact k.isLt)
    have h2 := maskOf_get t k.val (by rw [maskOf_length]; exact k.isLt)
    simp only [Fin.eta] at h1 h2
    rw [← h1, ← h2]
    simp only [h]
  have hφ : ∀ t : Fin lay.arrayLen → Fin 4294967296, ∃ u : Fin lay.arrayLen → Fin 4294967296,
      (QueryParams.generateKvQuery prof { qp with lhs := maskOf t } k).2 = .ok (maskOf u) := by
    intro t
    obtain ⟨_, q, _, _, _, _, h, hl, _⟩ := C07_kv_query_outcome prof size segExp cap0
      lay hlay fp hg hs { qp with lhs := maskOf t } hb hfp hu (maskOf_length t) k
    obtain ⟨u, rfl⟩ := hsurj q hl
    exact ⟨u, h⟩
  choose φ hφ using hφ
  have hφi : Function.Injective φ := by
    intro s t h
    obtain ⟨mask, _, huniq⟩ := C07_kv_query_bijection prof size segExp cap0 lay hlay fp hg hs qp hb
      hfp hu k (maskOf (φ s)) (maskOf_length _)
    have h1 := huniq (maskOf s) ⟨maskOf_length s, hφ s⟩
    have h2 := huniq (maskOf t) ⟨maskOf_length t, by rw [h]; exact hφ t⟩
    exact hinj s t (h1.trans h2.symm)
  have hφs : Function.Surjective φ := (Finite.injective_iff_bijective.1 hφi).2
  rw [← card_image_of_injective _ hφi]
  congr 1
  ext q
  simp only [mem_image, mem_filter, mem_univ, true_and]
  constructor
  · rintro ⟨t, h, rfl⟩
    rwa [hφ t] at h
  · intro h
    obtain ⟨t, rfl⟩ := hφs q
    exact ⟨t, by rw [hφ t]; exact h, rfl⟩

/-- Non-vacuity: two different positions of a three-word mask, ten plaintext bits. -/
example : (0 : Fin 3) ≠ 2 ∧ (1 ≤ 10 ∧ 10 ≤ 31) ∧
    (∃ q, indexOutcome .debug ⟨[], [], 8, 10, none, false⟩ 10 (0 : Fin 3)
        (fun _ : Fin 3 => 5) = .ok q ∧
      (q.getD 2 0#32).toNat < 2 ^ 22) := by
  refine ⟨by decide, by decide, ?_⟩
  rw [indexOutcome_eq _ _ (by decide) (by decide), if_pos (by decide)]
  exact ⟨_, rfl, by decide⟩

end Chalamet
