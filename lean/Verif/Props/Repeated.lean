import Verif.Props.Leakage
import Mathlib.Analysis.SpecialFunctions.Log.Basic

/-!
# C108: asking again for the same row under ideal masks

A client that asks repeatedly for one row, every time with fresh query parameters, lets a server that can link
the queries narrow down the row: `checked_add` makes the word at the right position at least `D = 2^(32-b)` in
every query that is sent, while every other position falls below `D` now and then. Keyword queries, which wrap,
do not accumulate anything.
-/

namespace Chalamet
open Finset

/-- What the server does with the queries it has seen: keep the positions whose word was never below `2^(32-b)`.
(Specification only: this is the observer, not code of the repository.) -/
def stillPossible (b m : Nat) (seen : List (List U32)) : List Nat :=
  (List.range m).filter fun j => seen.all fun q => decide (2 ^ (32 - b) ≤ (q.getD j 0#32).toNat)

/-- The queries that are actually sent in `n` attempts for row `i`, the `k`-th with mask `T k`
(`src/api.rs:276-294`: an attempt that overflows sends nothing). -/
def sentQueries (prof : Profile) (qp : QueryParams Unit) (b i : Nat) {m n : Nat}
    (T : Fin n → Fin m → Fin 4294967296) : List (List U32) :=
  (List.ofFn fun k => indexOutcome prof qp b i (T k)).filterMap fun o =>
    match o with
    | .ok q => some q
    | _ => none

theorem mem_sentQueries {prof : Profile} {qp : QueryParams Unit} {b i m n : Nat}
    {T : Fin n → Fin m → Fin 4294967296} {q : List U32} :
    q ∈ sentQueries prof qp b i T ↔ ∃ k, indexOutcome prof qp b i (T k) = .ok q := by
  unfold sentQueries
  simp only [List.mem_filterMap, List.mem_ofFn]
  constructor
  · rintro ⟨o, ⟨k, rfl⟩, h⟩
    refine ⟨k, ?_⟩
    cases ho : indexOutcome prof qp b i (T k) with
    | ok v => rw [ho] at h; simp only [Option.some.injEq] at h; rw [h]
    | err e => rw [ho] at h; cases h
    | panic => rw [ho] at h; cases h
    | diverge => rw [ho] at h; cases h
  · rintro ⟨k, h⟩
    exact ⟨_, ⟨k, rfl⟩, by rw [h]⟩

theorem mem_stillPossible {b m : Nat} {seen : List (List U32)} {j : Nat} :
    j ∈ stillPossible b m seen ↔ j < m ∧ ∀ q ∈ seen, 2 ^ (32 - b) ≤ (q.getD j 0#32).toNat := by
  simp [stillPossible]

/-- **C108 (the right row is never ruled out).** -/
theorem C108_right_row_stays (prof : Profile) (qp : QueryParams Unit) (b m n : Nat) (hb1 : 1 ≤ b)
    (hb : b ≤ 31) (i : Fin m) (T : Fin n → Fin m → Fin 4294967296) :
    i.val ∈ stillPossible b m (sentQueries prof qp b i T) := by
  rw [mem_stillPossible]
  refine ⟨i.isLt, fun q hq => ?_⟩
  obtain ⟨k, hk⟩ := mem_sentQueries.1 hq
  rw [indexOutcome_eq prof qp hb1 hb] at hk
  split at hk
  · rename_i hlt
    cases hk
    have hi : i.val < (maskOf (shiftAt (2 ^ (32 - b)) i (T k))).length := by rw [maskOf_length]; exact i.isLt
    rw [getD_lt hi, maskOf_get _ i.val hi]
    simp only [Fin.eta, shiftAt, Function.update_self, Nat.mod_eq_of_lt hlt]
    omega
  · cases hk

open scoped Classical in
/-- One attempt leaves `j` possible for all but a fraction `2^-b (1 - 2^-b)` of the masks. -/
theorem card_stays (prof : Profile) (qp : QueryParams Unit) {b m : Nat} (hb1 : 1 ≤ b)
    (hb : b ≤ 31) {i j : Fin m} (hij : i ≠ j) :
    (univ.filter fun t : Fin m → Fin 4294967296 => ∀ q, indexOutcome prof qp b i t = .ok q →
      2 ^ (32 - b) ≤ (q.getD j 0#32).toNat).card * (2 ^ b * 2 ^ b) =
      (2 ^ b * 2 ^ b - (2 ^ b - 1)) * (2 ^ 32) ^ m := by
  have h1 := (C65_advantage_attained prof qp b m hb1 hb i j hij).2
  have h2 := Finset.card_filter_add_card_filter_not (s := (univ : Finset (Fin m → Fin 4294967296)))
    (fun t => ∃ q, indexOutcome prof qp b i t = .ok q ∧ (q.getD j 0#32).toNat < 2 ^ (32 - b))
  have e : (univ.filter fun t : Fin m → Fin 4294967296 => ∀ q, indexOutcome prof qp b i t = .ok q →
      2 ^ (32 - b) ≤ (q.getD j 0#32).toNat) = univ.filter fun t : Fin m → Fin 4294967296 =>
      ¬ ∃ q, indexOutcome prof qp b i t = .ok q ∧ (q.getD j 0#32).toNat < 2 ^ (32 - b) := by
    ext t
    simp only [mem_filter, mem_univ, true_and, not_exists, not_and, not_lt]
  rw [e]
  rw [card_univ, Fintype.card_fun, Fintype.card_fin, Fintype.card_fin] at h2
  have h3 : (4294967296 : Nat) ^ m = (2 ^ 32) ^ m := by rw [show (2 : Nat) ^ 32 = 4294967296 from rfl]
  rw [h3] at h2
  generalize (2 ^ 32) ^ m = M at h1 h2 ⊢
  rw [Nat.sub_mul, ← h1, ← h2]
  ring_nf
  omega

open scoped Classical in
/-- **C108 (how often a wrong row survives).** In `n` attempts for row `i`, each with its own ideal mask, a wrong
row `j` is not ruled out for exactly a fraction `(1 - 2^-b (1 - 2^-b))^n` of all families of masks. -/
theorem C108_wrong_row_survives (prof : Profile) (qp : QueryParams Unit) (b m n : Nat) (hb1 : 1 ≤ b)
    (hb : b ≤ 31) (i j : Fin m) (hij : i ≠ j) :
    (univ.filter fun T : Fin n → Fin m → Fin 4294967296 =>
      j.val ∈ stillPossible b m (sentQueries prof qp b i T)).card * (2 ^ b * 2 ^ b) ^ n =
      (2 ^ b * 2 ^ b - (2 ^ b - 1)) ^ n * ((2 ^ 32) ^ m) ^ n := by
  have hset : (univ.filter fun T : Fin n → Fin m → Fin 4294967296 =>
      j.val ∈ stillPossible b m (sentQueries prof qp b i T)) = Fintype.piFinset fun _ : Fin n =>
      univ.filter fun t : Fin m → Fin 4294967296 => ∀ q, indexOutcome prof qp b i t = .ok q →
      2 ^ (32 - b) ≤ (q.getD j 0#32).toNat := by
    ext T
    simp only [mem_filter, mem_univ, true_and, Fintype.mem_piFinset, mem_stillPossible, mem_sentQueries]
    constructor
    · rintro ⟨_, h⟩ k q hq
      exact h q ⟨k, hq⟩
    · intro h
      exact ⟨j.isLt, fun q ⟨k, hk⟩ => h k q hk⟩
  rw [hset, Fintype.card_piFinset, prod_const, card_univ, Fintype.card_fin, ← Nat.mul_pow,
    card_stays prof qp hb1 hb hij, Nat.mul_pow]

open scoped Classical in
/-- **C108 (the row is identified).** The families of masks for which the observer's list is anything but
exactly `[i]` are at most a fraction `(m-1) (1 - 2^-b (1 - 2^-b))^n` of all. -/
theorem C108_identified (prof : Profile) (qp : QueryParams Unit) (b m n : Nat) (hb1 : 1 ≤ b)
    (hb : b ≤ 31) (i : Fin m) :
    (univ.filter fun T : Fin n → Fin m → Fin 4294967296 =>
      stillPossible b m (sentQueries prof qp b i T) ≠ [i.val]).card * (2 ^ b * 2 ^ b) ^ n ≤
      (m - 1) * ((2 ^ b * 2 ^ b - (2 ^ b - 1)) ^ n * ((2 ^ 32) ^ m) ^ n) := by
  have hsub : (univ.filter fun T : Fin n → Fin m → Fin 4294967296 =>
      stillPossible b m (sentQueries prof qp b i T) ≠ [i.val]) ⊆
      (univ.erase i).biUnion fun j => univ.filter fun T : Fin n → Fin m → Fin 4294967296 =>
        j.val ∈ stillPossible b m (sentQueries prof qp b i T) := by
    intro T hT
    simp only [mem_filter, mem_univ, true_and] at hT
    simp only [mem_biUnion, mem_erase, mem_univ, and_true, mem_filter, true_and]
    by_contra hno
    push Not at hno
    apply hT
    have hnd : (stillPossible b m (sentQueries prof qp b i T)).Nodup := List.nodup_range.filter _
    have hmem : ∀ x ∈ stillPossible b m (sentQueries prof qp b i T), x = i.val := by
      intro x hx
      by_contra hne
      have hxm := (mem_stillPossible.1 hx).1
      exact hno ⟨x, hxm⟩ (fun h => hne (congrArg Fin.val h)) hx
    have hi := C108_right_row_stays prof qp b m n hb1 hb i T
    generalize stillPossible b m (sentQueries prof qp b i T) = l at hnd hmem hi
    match l with
    | [] => simp at hi
    | [x] => rw [hmem x (by simp)]
    | x :: y :: l' =>
      have h1 := hmem x (by simp)
      have h2 := hmem y (by simp)
      simp [h1, h2] at hnd
  refine le_trans (Nat.mul_le_mul_right _ (le_trans (card_le_card hsub) card_biUnion_le)) ?_
  rw [Finset.sum_mul, Finset.sum_congr rfl fun j hj =>
    C108_wrong_row_survives prof qp b m n hb1 hb i j (Ne.symm (mem_erase.1 hj).1), Finset.sum_const,
    card_erase_of_mem (mem_univ i), card_univ, Fintype.card_fin, smul_eq_mul]

open scoped Classical in
/-- **C108 (how many queries are enough).** After `n ≥ 2^(b+1) (ln m + s)` attempts for one row, the observer's
list is exactly `[i]` for all but a fraction `e^-s` of the families of ideal masks. -/
theorem C108_enough_queries (prof : Profile) (qp : QueryParams Unit) (b m n : Nat) (hb1 : 1 ≤ b)
    (hb : b ≤ 31) (i : Fin m) (s : ℝ) (hn : 2 ^ (b + 1) * (Real.log m + s) ≤ n) :
    ((univ.filter fun T : Fin n → Fin m → Fin 4294967296 =>
      stillPossible b m (sentQueries prof qp b i T) ≠ [i.val]).card : ℝ) ≤
      Real.exp (-s) * (((2 ^ 32) ^ m) ^ n : ℕ) := by
  have h := C108_identified prof qp b m n hb1 hb i
  have hm : 0 < m := i.pos
  generalize (univ.filter fun T : Fin n → Fin m → Fin 4294967296 =>
      stillPossible b m (sentQueries prof qp b i T) ≠ [i.val]).card = c at h ⊢
  generalize ((2 ^ 32) ^ m) ^ n = M at h ⊢
  have hB : 2 ≤ 2 ^ b := by
    have := Nat.pow_le_pow_right (n := 2) (by omega) hb1
    omega
  have hpw : (2 : ℝ) ^ (b + 1) = 2 * ((2 ^ b : ℕ) : ℝ) := by push_cast; ring
  rw [hpw] at hn
  generalize 2 ^ b = B at h hB hn
  have hBB : B - 1 ≤ B * B := by nlinarith [Nat.sub_le B 1]
  have hR : ((B * B - (B - 1) : ℕ) : ℝ) = (B : ℝ) * B * (1 - ((B : ℝ) - 1) / (B * B)) := by
    rw [Nat.cast_sub hBB, Nat.cast_mul, Nat.cast_sub (by omega)]
    have : (B : ℝ) ≠ 0 := by positivity
    field_simp
    push_cast
    ring
  have hBr : (2 : ℝ) ≤ B := by exact_mod_cast hB
  have h' : (c : ℝ) * ((B : ℝ) * B) ^ n ≤
      (m : ℝ) * (((B : ℝ) * B * (1 - ((B : ℝ) - 1) / (B * B))) ^ n * M) := by
    rw [← hR]
    have h1 : c * (B * B) ^ n ≤ m * ((B * B - (B - 1)) ^ n * M) :=
      le_trans h (Nat.mul_le_mul_right _ (Nat.sub_le _ _))
    exact_mod_cast h1
  rw [mul_pow ((B : ℝ) * B) (1 - ((B : ℝ) - 1) / (B * B)), show (m : ℝ) * ((((B : ℝ) * B) ^ n * (1 - ((B : ℝ) - 1) / (B * B)) ^ n) * M) =
    (m : ℝ) * (1 - ((B : ℝ) - 1) / (B * B)) ^ n * M * ((B : ℝ) * B) ^ n by ring] at h'
  have hpos : (0 : ℝ) < ((B : ℝ) * B) ^ n := by positivity
  have h2 := le_of_mul_le_mul_right h' hpos
  refine le_trans h2 ?_
  apply mul_le_mul_of_nonneg_right _ (by positivity)
  have hx : (1 : ℝ) / (2 * B) ≤ ((B : ℝ) - 1) / (B * B) := by
    rw [div_le_div_iff₀ (by positivity) (by positivity)]
    nlinarith
  have hx1 : ((B : ℝ) - 1) / (B * B) ≤ 1 := by
    rw [div_le_one (by positivity)]
    nlinarith
  have h3 : (1 - ((B : ℝ) - 1) / (B * B)) ^ n ≤ Real.exp (-(1 / (2 * B))) ^ n := by
    apply pow_le_pow_left₀ (by linarith)
    have := Real.add_one_le_exp (-(1 / (2 * (B : ℝ))))
    linarith
  rw [← Real.exp_nat_mul] at h3
  have h4 : Real.log m + s ≤ n * (1 / (2 * B)) := by
    rw [mul_one_div, le_div_iff₀ (by positivity)]
    linarith
  have hmr : (0 : ℝ) < m := by exact_mod_cast hm
  calc (m : ℝ) * (1 - ((B : ℝ) - 1) / (B * B)) ^ n
      ≤ m * Real.exp (n * -(1 / (2 * B))) := mul_le_mul_of_nonneg_left h3 hmr.le
    _ ≤ m * Real.exp (-(Real.log m + s)) := by
        apply mul_le_mul_of_nonneg_left _ hmr.le
        apply Real.exp_le_exp.2
        linarith
    _ = Real.exp (-s) := by
        rw [neg_add, Real.exp_add, Real.exp_neg (Real.log m), Real.exp_log hmr]
        field_simp

/-! ## Keyword queries -/

/-- With an ideal mask the query for a key is a permutation of the mask. -/
theorem kv_outcome_bij (prof : Profile) (size segExp cap0 : Nat) (lay : Layout)
    (hlay : bfLayout size segExp cap0 = .ok lay) (fp : FilterParams) (hg : fp.geom = lay.geom)
    (hs : fp.seed.length = 32) (qp : QueryParams FilterParams) (hb : qp.plaintextBits ≤ 31)
    (hfp : qp.extraParams = some fp) (hu : qp.used = false) (k : Key) :
    ∃ φ : (Fin lay.arrayLen → Fin 4294967296) → (Fin lay.arrayLen → Fin 4294967296),
      Function.Bijective φ ∧ ∀ t,
        (QueryParams.generateKvQuery prof { qp with lhs := maskOf t } k).2 = .ok (maskOf (φ t)) := by
  have hsurj : ∀ v : List U32, v.length = lay.arrayLen →
      ∃ t : Fin lay.arrayLen → Fin 4294967296, maskOf t = v := by
    intro v hv
    refine ⟨fun k => ⟨(v[k.val]'(by rw [hv]; exact k.isLt)).toNat, BitVec.isLt _⟩, ?_⟩
    apply List.ext_getElem
    · rw [maskOf_length, hv]
    · intro k h1 h2
      apply BitVec.eq_of_toNat_eq
      rw [maskOf_get _ k h1]
  have hinj : ∀ s t : Fin lay.arrayLen → Fin 4294967296, maskOf s = maskOf t → s = t := by
    intro s t h
    funext k
    apply Fin.ext
    have h1 := maskOf_get s k.val (by rw [maskOf_length]; exact k.isLt)
    have h2 := maskOf_get t k.val (by rw [maskOf_length]; exact k.isLt)
    simp only [Fin.eta] at h1 h2
    rw [← h1, ← h2]
    simp only [h]
  have hφ : ∀ t : Fin lay.arrayLen → Fin 4294967296, ∃ u : Fin lay.arrayLen → Fin 4294967296,
      (QueryParams.generateKvQuery prof { qp with lhs := maskOf t } k).2 = .ok (maskOf u) := by
    intro t
    obtain ⟨_, q, _, _, _, _, h, hl, _⟩ := C07_kv_query_outcome prof size segExp cap0
      lay hlay fp hg hs { qp with lhs := maskOf t } hb hfp hu (maskOf_length t) k
    obtain ⟨u, rfl⟩ := hsurj q hl
    exact ⟨u, h⟩
  choose φ hφ using hφ
  have hφi : Function.Injective φ := by
    intro s t h
    obtain ⟨mask, _, huniq⟩ := C07_kv_query_bijection prof size segExp cap0 lay hlay fp hg hs qp hb
      hfp hu k (maskOf (φ s)) (maskOf_length _)
    have h1 := huniq (maskOf s) ⟨maskOf_length s, hφ s⟩
    have h2 := huniq (maskOf t) ⟨maskOf_length t, by rw [h]; exact hφ t⟩
    exact hinj s t (h1.trans h2.symm)
  exact ⟨φ, Finite.injective_iff_bijective.1 hφi, hφ⟩

open scoped Classical in
/-- **C108 (keyword queries accumulate nothing).** For any two lists of `n` keys (for instance one key asked for
`n` times, and `n` different keys), and any test on the whole list of what is sent, exactly as many families of
masks make the test accept. -/
theorem C108_kv_nothing_accumulates (prof : Profile) (size segExp cap0 : Nat) (lay : Layout)
    (hlay : bfLayout size segExp cap0 = .ok lay) (fp : FilterParams) (hg : fp.geom = lay.geom)
    (hs : fp.seed.length = 32) (qp : QueryParams FilterParams) (hb : qp.plaintextBits ≤ 31)
    (hfp : qp.extraParams = some fp) (hu : qp.used = false) (n : Nat) (k₁ k₂ : Fin n → Key)
    (test : (Fin n → Res (List U32)) → Prop) :
    (univ.filter fun T : Fin n → Fin lay.arrayLen → Fin 4294967296 =>
      test fun a => (QueryParams.generateKvQuery prof { qp with lhs := maskOf (T a) } (k₁ a)).2).card =
    (univ.filter fun T : Fin n → Fin lay.arrayLen → Fin 4294967296 =>
      test fun a => (QueryParams.generateKvQuery prof { qp with lhs := maskOf (T a) } (k₂ a)).2).card := by
  suffices h : ∀ ks : Fin n → Key, (univ.filter fun T : Fin n → Fin lay.arrayLen → Fin 4294967296 =>
      test fun a => (QueryParams.generateKvQuery prof { qp with lhs := maskOf (T a) } (ks a)).2).card =
      (univ.filter fun U : Fin n → Fin lay.arrayLen → Fin 4294967296 =>
        test fun a => .ok (maskOf (U a))).card by
    rw [h k₁, h k₂]
  intro ks
  choose φ hφb hφ using fun k => kv_outcome_bij prof size segExp cap0 lay hlay fp hg hs qp hb hfp hu k
  have hΦ : Function.Injective fun (T : Fin n → Fin lay.arrayLen → Fin 4294967296) a => φ (ks a) (T a) := by
    intro S T h
    funext a
    exact (hφb (ks a)).1 (congrFun h a)
  rw [← card_image_of_injective _ hΦ]
  congr 1
  ext U
  simp only [mem_image, mem_filter, mem_univ, true_and]
  constructor
  · rintro ⟨T, h, rfl⟩
    simpa only [hφ] using h
  · intro h
    choose T hT using fun a => (hφb (ks a)).2 (U a)
    refine ⟨T, ?_, funext hT⟩
    simpa only [hφ, hT] using h

/-- Non-vacuity: two sent queries for row `0` of three rows rule out rows `1` and `2`, and leave only row `0`. -/
example : stillPossible 10 3 (sentQueries .debug ⟨[], [], 8, 10, none, false⟩ 10 (0 : Fin 3)
    (fun k : Fin 2 => if k = 0 then ![5, 6, 4294967295] else ![7, 4194304, 4194303])) = [0] := by
  decide +kernel

end Chalamet
