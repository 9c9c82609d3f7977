import Verif.Lemmas.Moments
import Verif.Props.Sharp
import Verif.Props.Witnesses

/-!
# C113: too many rows make retrieval fail for a constant fraction of the random choices

C56 bounds the failure rate from above, C92 shows that single random choices can fail. Here is a bound from below: as soon as
the mean square of the noise of a column exceeds the square of half the scaling factor, a constant fraction of the random
choices of the client gives a wrong row, whichever row or key is asked for and whatever its secret is.
-/

namespace Chalamet
open Spec

/-- Mean square (variance) of the noise of a column, each error being 1 or -1 with probability 1431655764/4294967293 each
(C27). -/
noncomputable def Spec.noiseVar (col : List U32) : ℝ :=
  2863311528 / 4294967293 * (col.map fun x => (x.toNat : ℝ) ^ 2).sum

/-- Lower bound on the probability that the noise of a column is outside the window: `(1 - (D/2)^2/v)^2 / 3`, less the
probability `2 exp (-3 (2^31)^2/(4 Σ c^2))` that it wraps around modulo `2^32`. -/
noncomputable def Spec.missRate (b : Nat) (col : List U32) : ℝ :=
  (1 - (2 ^ (31 - b)) ^ 2 / noiseVar col) ^ 2 / 3 -
    2 * Real.exp (-(3 * (2 ^ 31) ^ 2 / (4 * (col.map fun x => (x.toNat : ℝ) ^ 2).sum)))

theorem not_inWindow_of_abs {b : Nat} {z : Int} (h : 2 ^ (31 - b) < |z|) (h' : |z| < 2 ^ 31) :
    ¬ InWindow b (BitVec.ofInt 32 z) := by
  have hz : ((2 : Int) ^ (31 - b)) = ((2 ^ (31 - b) : Nat) : Int) := by norm_cast
  obtain ⟨h1, h2⟩ := abs_lt.1 h'
  rw [hz] at h
  unfold InWindow
  rw [signed_ofInt (by omega) (by omega), hz]
  rcases lt_abs.1 h with h | h <;> omega

/-- The noise of a sample point as an integer: the sum of the sampled errors times the entries of the column. -/
def Spec.noiseInt (col : List U32) (t : Fin col.length → Fin 4294967293) : Int :=
  ∑ i : Fin col.length, clsOf 1431655764 (t i) * (col[i].toNat : Int)

theorem dot_words {col : List U32} (t : Fin col.length → Fin 4294967293) {e rest : List U32}
    (he : randomTernaryVector col.length (words t) = .ok (e, rest)) : dot e col = BitVec.ofInt 32 (noiseInt col t) := by
  have hcol : List.ofFn (fun i : Fin col.length => col[i]) = col := by simp
  rw [words_sampled] at he
  simp only [Res.ok.injEq, Prod.mk.injEq] at he
  rw [← he.1]
  have hd := dot_ofFn (fun i => clsOf 1431655764 (t i)) (fun i : Fin col.length => col[i])
  rw [hcol] at hd
  simp only [← ternaryOf_clsOf] at hd
  exact hd

theorem sum_sq_eq (col : List U32) : (col.map fun x => (x.toNat : ℝ) ^ 2).sum =
    ∑ i : Fin col.length, ((col[i].toNat : ℝ)) ^ 2 := by
  have hcol : List.ofFn (fun i : Fin col.length => col[i]) = col := by simp
  conv_lhs => rw [← hcol]
  rw [List.map_ofFn, List.sum_ofFn]
  rfl

theorem noiseInt_cast (col : List U32) (t : Fin col.length → Fin 4294967293) :
    ((noiseInt col t : Int) : ℝ) =
      noiseOf 1431655764 (fun i : Fin col.length => (col[i].toNat : ℝ)) t := by
  unfold noiseInt noiseOf
  push_cast
  rfl

/-- **C113 (the variance).** `noiseVar` is the mean square of the noise over all samples. -/
theorem C113_variance (col : List U32) :
    ∑ t : Fin col.length → Fin 4294967293, ((noiseInt col t : Int) : ℝ) ^ 2 = noiseVar col * 4294967293 ^ col.length := by
  have h := moment_two 1431655764 (fun i : Fin col.length => (col[i].toNat : ℝ))
  rw [← sum_sq_eq] at h
  have e1 : (3 * ((1431655764 : ℕ) : ℝ) + 1) = 4294967293 := by norm_num
  have e2 : 2 * ((1431655764 : ℕ) : ℝ) = 2863311528 := by norm_num
  rw [e1, e2] at h
  unfold noiseVar
  have h' : ∑ t : Fin col.length → Fin 4294967293, ((noiseInt col t : Int) : ℝ) ^ 2 =
      ∑ t, noiseOf 1431655764 (fun i : Fin col.length => (col[i].toNat : ℝ)) t ^ 2 :=
    Finset.sum_congr rfl fun t _ => by rw [noiseInt_cast]
  rw [h', div_mul_eq_mul_div, div_mul_eq_mul_div, eq_div_iff (by norm_num)]
  linarith

open scoped Classical in
/-- **C113 (one column).** If the variance of the noise of a column is at least `(D/2)^2`, the noise of at least a fraction
`missRate` of the samples is outside the window. -/
theorem C113_column (b m : Nat) (col : List U32) (hm : col.length = m) (hv : (2 ^ (31 - b)) ^ 2 ≤ noiseVar col) :
    missRate b col * 4294967293 ^ m ≤
    ((Finset.univ.filter fun t : Fin m → Fin 4294967293 =>
        ∃ e rest, randomTernaryVector m (words t) = .ok (e, rest) ∧ ¬ InWindow b (dot e col)).card : ℝ) := by
  subst hm
  have hv0 : 0 < noiseVar col := lt_of_lt_of_le (by positivity) hv
  have h1 := paley_zygmund 1431655764 (by norm_num) (fun i : Fin col.length => (col[i].toNat : ℝ)) (2 ^ (31 - b))
    (noiseVar col) hv0 (by
      rw [← sum_sq_eq]
      unfold noiseVar
      have e1 : (3 * ((1431655764 : ℕ) : ℝ) + 1) = 4294967293 := by norm_num
      have e2 : 2 * ((1431655764 : ℕ) : ℝ) = 2863311528 := by norm_num
      rw [e1, e2, ← mul_assoc, mul_div_cancel₀ _ (by norm_num)]) hv
  have h2 := tail_two 1431655764 (fun i : Fin col.length => (col[i].toNat : ℝ)) (2 ^ 31)
    (col.map fun x => (x.toNat : ℝ) ^ 2).sum (by positivity) (le_of_eq (sum_sq_eq col).symm)
  have e1 : (3 * ((1431655764 : ℕ) : ℝ) + 1) = 4294967293 := by norm_num
  rw [e1] at h1 h2
  have a1 : (1 - (2 ^ (31 - b)) ^ 2 / noiseVar col) ^ 2 / 3 * 4294967293 ^ col.length ≤
      ((Finset.univ.filter fun t : Fin col.length → Fin (3 * 1431655764 + 1) =>
        2 ^ (31 - b) < |noiseOf 1431655764 (fun i : Fin col.length => (col[i].toNat : ℝ)) t|).card : ℝ) := by
    convert h1
  have a2 : ((Finset.univ.filter fun t : Fin col.length → Fin (3 * 1431655764 + 1) =>
        2 ^ 31 ≤ |∑ i, clsOf 1431655764 (t i) * (col[i].toNat : ℝ)|).card : ℝ) ≤
      2 * Real.exp (-(3 * (2 ^ 31) ^ 2 / (4 * (col.map fun x => (x.toNat : ℝ) ^ 2).sum))) * 4294967293 ^ col.length := by
    convert h2
  have hsub : (Finset.univ.filter fun t : Fin col.length → Fin (3 * 1431655764 + 1) =>
        2 ^ (31 - b) < |noiseOf 1431655764 (fun i : Fin col.length => (col[i].toNat : ℝ)) t|) ⊆
      (Finset.univ.filter fun t : Fin col.length → Fin 4294967293 =>
        ∃ e rest, randomTernaryVector col.length (words t) = .ok (e, rest) ∧ ¬ InWindow b (dot e col)) ∪
      (Finset.univ.filter fun t : Fin col.length → Fin (3 * 1431655764 + 1) =>
        2 ^ 31 ≤ |∑ i, clsOf 1431655764 (t i) * (col[i].toNat : ℝ)|) := by
    intro t ht
    have ht := (Finset.mem_filter.1 ht).2
    rw [Finset.mem_union, Finset.mem_filter, Finset.mem_filter]
    by_cases hbig : (2 : ℝ) ^ 31 ≤ |noiseOf 1431655764 (fun i : Fin col.length => (col[i].toNat : ℝ)) t|
    · exact Or.inr ⟨Finset.mem_univ _, hbig⟩
    · left
      rw [not_le] at hbig
      have hs := words_sampled (m := col.length) t
      refine ⟨Finset.mem_univ _, _, _, hs, ?_⟩
      rw [dot_words t hs]
      rw [← noiseInt_cast col t] at ht hbig
      refine not_inWindow_of_abs ?_ ?_
      · exact_mod_cast ht
      · exact_mod_cast hbig
  have h3 := (Nat.cast_le (α := ℝ)).2 (le_trans (Finset.card_le_card hsub) (Finset.card_union_le _ _))
  rw [Nat.cast_add] at h3
  unfold missRate
  rw [sub_mul, sub_le_iff_le_add]
  exact le_trans a1 (le_trans h3 (add_le_add le_rfl a2))

/-- Counting the complement. -/
theorem card_le_of_disjoint {m : Nat} {P Q : (Fin m → Fin 4294967293) → Prop} [DecidablePred P] [DecidablePred Q] {r : ℝ} (h : ∀ t, P t → ¬ Q t)
    (hQ : r * 4294967293 ^ m ≤ ((Finset.univ.filter Q).card : ℝ)) :
    ((Finset.univ.filter P).card : ℝ) ≤ (1 - r) * 4294967293 ^ m := by
  have hd : Disjoint (Finset.univ.filter P) (Finset.univ.filter Q) := by
    rw [Finset.disjoint_filter]
    intro t _ hp
    exact h t hp
  have h1 : (Finset.univ.filter P).card + (Finset.univ.filter Q).card ≤ 4294967293 ^ m := by
    rw [← Finset.card_union_of_disjoint hd]
    refine le_trans (Finset.card_le_univ _) (le_of_eq ?_)
    simp
  have h2 : ((Finset.univ.filter P).card : ℝ) + ((Finset.univ.filter Q).card : ℝ) ≤ 4294967293 ^ m := by
    exact_mod_cast h1
  rw [sub_mul, one_mul]
  linarith

open scoped Classical in
/-- **C113 (index retrieval).** Build a shard from `elems` and fix the words `ts` from which the client draws its secret. If
the noise of some column of digits has variance at least `(D/2)^2`, then for every row `i` at most a fraction `1 - missRate`
of the noise samples lets the exchange return row `i`. -/
theorem C113_index (prof : Profile) (prg : Prg) (seed : List U8) (strs : List (List Char))
    (elems : List (List U8)) (n m T b : Nat)
    (hb1 : 1 ≤ b) (hb : b ≤ 31) (hT : T < 2 ^ 64) (hm0 : 0 < m) (hm : m ≤ elems.length)
    (hdec : strs.map b64Decode = elems.map Res.ok)
    (hlen : ∀ e ∈ elems.take m, T ≤ 8 * e.length) (j : Nat) (hj : j < width T b)
    (hv : (2 ^ (31 - b)) ^ 2 ≤ noiseVar (column b j (elems.take m))) :
    ∃ shard, Shard.fromBase64Strings prof prg seed strs n m T b = .ok shard ∧
      ∀ ts s, randomTernaryVector n ts = .ok (s, []) → ∀ i (hi : i < m),
        ((Finset.univ.filter fun t : Fin m → Fin 4294967293 =>
            indexExchange prof prg shard i (ts ++ words t) = .ok (rowOf b (width T b) elems[i])).card : ℝ) ≤
          (1 - missRate b (column b j (elems.take m))) * 4294967293 ^ m := by
  obtain ⟨shard, h1, h2⟩ := C01_index_pir prof prg seed strs elems n m T b hb1 hb hT hm0 hm hdec hlen
  refine ⟨shard, h1, ?_⟩
  intro ts s hs i hi
  refine card_le_of_disjoint ?_ (C113_column b m (column b j (elems.take m)) (by simp [column, hm]) hv)
  rintro t hex ⟨e', rest, he', hout⟩
  unfold indexExchange at hex
  obtain ⟨⟨qp, tape'⟩, hgen, hex⟩ := Res.bind_eq_ok.1 hex
  obtain ⟨s', t1, e, hs', he, hall⟩ := h2 _ _ _ hgen
  rw [randomTernaryVector_append hs] at hs'
  simp only [List.nil_append, Res.ok.injEq, Prod.mk.injEq] at hs'
  obtain ⟨rfl, rfl⟩ := hs'
  rw [he'] at he
  simp only [Res.ok.injEq, Prod.mk.injEq] at he
  obtain ⟨rfl, rfl⟩ := he
  simp only at hex
  obtain ⟨q, hq, hex⟩ := Res.bind_eq_ok.1 hex
  obtain ⟨bytes, hby, hex⟩ := Res.bind_eq_ok.1 hex
  obtain ⟨resp, hre, hex⟩ := Res.bind_eq_ok.1 hex
  obtain ⟨hi', bytes', resp', row', hby', hre', hp', _, _, hiff⟩ :=
    hall i (qp.generateIndexQuery prof i).1 q (Prod.ext rfl hq)
  rw [hby] at hby'
  cases hby'
  rw [hre] at hre'
  cases hre'
  rw [hex] at hp'
  cases hp'
  exact hout (hiff.1 rfl j hj)

open scoped Classical in
/-- **C113 (keyword retrieval).** The same for the exchange of a stored key (the last one stored with its hash); here no
query is refused, so at least a fraction `missRate` of the noise samples makes the exchange return a wrong value. -/
theorem C113_kv (prof : Profile) (prg : Prg) (pseed : List U8) (segExp cap0 : Nat)
    (fp0 : Nat → Nat → U32) (filterSeed : List U8) (kvs : List KeyValue) (n m T b : Nat)
    (shard : KVShard) (hb1 : 1 ≤ b) (hb : b ≤ 31) (hT : T < 2 ^ 64)
    (hsh : KVShard.new prof prg pseed segExp cap0 fp0 filterSeed kvs n m T b = .ok shard)
    (hw : ∀ kv ∈ kvs, kv.value.length = width T b)
    (hload : prof = .debug ∨
      ∀ s, slotLoad filterSeed shard.db.filterParams.geom (kvs.map (·.key)) s < 64)
    (ts s : List U32) (hs : randomTernaryVector n ts = .ok (s, []))
    (i : Nat) (hi : i < kvs.length)
    (hlast : ∀ k (hk : k < kvs.length), i < k →
      mix256 kvs[k].key filterSeed ≠ mix256 kvs[i].key filterSeed)
    (col : List U32) (hc : col ∈ shard.db.entries) (hv : (2 ^ (31 - b)) ^ 2 ≤ noiseVar col) :
    missRate b col * 4294967293 ^ shard.baseParams.m ≤
    ((Finset.univ.filter fun t : Fin shard.baseParams.m → Fin 4294967293 =>
        ∃ row, kvExchange prof prg shard kvs[i].key (ts ++ words t) = .ok row ∧
          row ≠ kvs[i].value.map fun v => BitVec.ofNat 32 (v.toNat % 2 ^ b)).card : ℝ) := by
  obtain ⟨lay, hlay, hm, hps, hdim, hent, hcl, _⟩ := kvShard_shape hsh
  have hcl' : col.length = shard.baseParams.m := by rw [hm]; exact hcl col hc
  refine le_trans (C113_column b shard.baseParams.m col hcl' hv) (Nat.cast_le.2 (Finset.card_le_card ?_))
  intro t ht
  simp only [Finset.mem_filter, Finset.mem_univ, true_and] at ht ⊢
  obtain ⟨e, rest, he, hout⟩ := ht
  have hA := generateLwe_rect prg shard.baseParams.publicSeed shard.baseParams.dim shard.baseParams.m
  have hrhs := (C71_kv_sizes prof prg pseed segExp cap0 fp0 filterSeed kvs n m T b shard hb1 hb hsh).2.2.1
  have hs1 : randomTernaryVector n (ts ++ words t) = .ok (s, words t) := by
    have := randomTernaryVector_append (r := words t) hs
    simpa using this
  obtain ⟨qp, hgen, _⟩ := (C25_dimension_check_kv (commonParamsFrom prg shard.baseParams.publicSeed
    shard.baseParams.dim shard.baseParams.m) shard.baseParams (ts ++ words t) (words t) rest s e
    (by rw [hdim]; exact hs1) (by rw [commonParamsFrom, hA.1]; exact he)).2 (by
      intro c hc
      rcases List.mem_append.1 hc with hc | hc
      · exact hA.2 c hc
      · rw [hdim]; exact hrhs c hc)
  obtain ⟨s', t', e', hs', he', _, hx⟩ := C04_kv_pir prof prg pseed segExp cap0 fp0 filterSeed kvs n m
    T b shard hb1 hb hT hsh hw hload _ _ _ hgen
  rw [hs1] at hs'
  simp only [Res.ok.injEq, Prod.mk.injEq] at hs'
  obtain ⟨rfl, rfl⟩ := hs'
  rw [he] at he'
  simp only [Res.ok.injEq, Prod.mk.injEq] at he'
  obtain ⟨rfl, _⟩ := he'
  obtain ⟨qp', q, bytes, resp, row, h1, h2, h3, h4, _, _, h6⟩ := hx i hi hlast
  refine ⟨row, ?_, fun hrow => hout (h6.1 hrow col hc)⟩
  unfold kvExchange
  rw [hgen]
  simp only [Res.bind_ok]
  rw [h1]
  simp only [Res.bind_ok]
  rw [h2, Res.bind_ok, h3, Res.bind_ok, h4]

/-! ## Which sizes are affected -/

/-- The first column of `m` elements of one-bits. -/
theorem column_ones {b T m : Nat} (hbT : b ≤ T) :
    column b 0 ((List.replicate m (onesElem T)).take m) = List.replicate m (BitVec.ofNat 32 (2 ^ b - 1)) := by
  simp [column, digit_zero_ones hbT]

theorem sum_sq_ones {b m : Nat} (hb : b ≤ 31) :
    ((List.replicate m (BitVec.ofNat 32 (2 ^ b - 1) : U32)).map fun x => (x.toNat : ℝ) ^ 2).sum = m * (2 ^ b - 1) ^ 2 := by
  have hx : (BitVec.ofNat 32 (2 ^ b - 1) : U32).toNat = 2 ^ b - 1 := by
    rw [BitVec.toNat_ofNat]
    exact Nat.mod_eq_of_lt (by have : 2 ^ b ≤ 2 ^ 31 := Nat.pow_le_pow_right (by omega) hb; omega)
  rw [List.map_replicate, List.sum_replicate, nsmul_eq_mul, hx, Nat.cast_sub Nat.one_le_two_pow]
  push_cast
  rfl

open scoped Classical in
/-- **C113 (too many rows).** Take `m` records of `T ≥ b` one-bits with `3 * 2^(62-2b) ≤ m * (2^b-1)^2 ≤ 2^59`: whatever the
secret, the build and the row asked for, at least one noise sample in 13 fails to return the row. -/
theorem C113_too_many_rows (prof : Profile) (prg : Prg) (seed : List U8) (n m T b : Nat) (hb1 : 1 ≤ b) (hb : b ≤ 31)
    (hbT : b ≤ T) (hT : T < 2 ^ 64) (hlow : (3 * (2 ^ (31 - b)) ^ 2 : ℝ) ≤ m * (2 ^ b - 1) ^ 2)
    (hhigh : (m * (2 ^ b - 1) ^ 2 : ℝ) ≤ 2 ^ 59) :
    ∃ shard, Shard.fromBase64Strings prof prg seed (List.replicate m (b64Encode (onesElem T))) n m T b = .ok shard ∧
      ∀ ts s, randomTernaryVector n ts = .ok (s, []) → ∀ i < m,
        ((Finset.univ.filter fun t : Fin m → Fin 4294967293 =>
            indexExchange prof prg shard i (ts ++ words t) = .ok (rowOf b (width T b) (onesElem T))).card : ℝ) ≤
          12 / 13 * 4294967293 ^ m := by
  have hW : (0 : ℝ) < (2 ^ (31 - b)) ^ 2 := by positivity
  have hm0 : 0 < m := by
    rcases Nat.eq_zero_or_pos m with rfl | h'
    · simp at hlow
      linarith
    · exact h'
  have hcol := column_ones (b := b) (T := T) (m := m) hbT
  have hS := sum_sq_ones (b := b) (m := m) hb
  have hvar : noiseVar (column b 0 ((List.replicate m (onesElem T)).take m)) =
      2863311528 / 4294967293 * (m * (2 ^ b - 1) ^ 2) := by
    unfold noiseVar
    rw [hcol, hS]
  set V : ℝ := m * (2 ^ b - 1) ^ 2 with hV
  have hV0 : 0 < V := by linarith
  have hvW : 1.9999 * (2 ^ (31 - b)) ^ 2 ≤ 2863311528 / 4294967293 * V := by
    have := mul_le_mul_of_nonneg_left hlow (show (0 : ℝ) ≤ 2863311528 / 4294967293 by norm_num)
    refine le_trans ?_ this
    rw [← mul_assoc]
    exact mul_le_mul_of_nonneg_right (by norm_num) hW.le
  obtain ⟨shard, h1, h2⟩ := C113_index prof prg seed (List.replicate m (b64Encode (onesElem T)))
    (List.replicate m (onesElem T)) n m T b hb1 hb hT hm0 (by simp) (by simp [b64Decode_encode]) (by
      intro e he
      have := (List.mem_replicate.1 (List.mem_of_mem_take he)).2
      rw [this, onesElem, List.length_replicate]
      omega) 0 (by unfold width; exact Nat.div_pos (by omega) (by omega)) (by
      rw [hvar]
      linarith)
  refine ⟨shard, h1, fun ts s hs i hi => ?_⟩
  have h := h2 ts s hs i hi
  rw [List.getElem_replicate] at h
  refine le_trans h (mul_le_mul_of_nonneg_right ?_ (by positivity))
  unfold missRate
  rw [hvar, hcol, hS]
  have hexp : Real.exp (-(3 * (2 ^ 31) ^ 2 / (4 * V))) < 0.003 := by
    refine exp_neg_lt 6 ?_ (by norm_num) (by norm_num)
    rw [le_div_iff₀ (by positivity)]
    push_cast
    linarith
  have hr : (2 ^ (31 - b)) ^ 2 / (2863311528 / 4294967293 * V) ≤ 1 / 1.9999 := by
    rw [div_le_div_iff₀ (by positivity) (by norm_num)]
    linarith
  have hr2 : (1 - 1 / 1.9999) ^ 2 ≤ (1 - (2 ^ (31 - b)) ^ 2 / (2863311528 / 4294967293 * V)) ^ 2 :=
    pow_le_pow_left₀ (by norm_num) (by linarith) 2
  have hr3 : (0.2499 : ℝ) ≤ (1 - 1 / 1.9999) ^ 2 := by norm_num
  linarith

/-- Sizes to which `C113_too_many_rows` applies: the default `2^16` records with 12-bit digits, and `2^24` records with the
default 10-bit digits; for the default sizes (`2^16` records, 10 bits) the failure rate is below `2^-58` (C56). -/
example : ((3 * (2 ^ (31 - 12)) ^ 2 : ℝ) ≤ (2 ^ 16 : ℕ) * (2 ^ 12 - 1) ^ 2 ∧ ((2 ^ 16 : ℕ) * (2 ^ 12 - 1) ^ 2 : ℝ) ≤ 2 ^ 59) ∧
    (3 * (2 ^ (31 - 10)) ^ 2 : ℝ) ≤ (2 ^ 24 : ℕ) * (2 ^ 10 - 1) ^ 2 ∧ ((2 ^ 24 : ℕ) * (2 ^ 10 - 1) ^ 2 : ℝ) ≤ 2 ^ 59 := by
  norm_num

theorem sum_sq_cast (col : List U32) :
    (col.map fun x => (x.toNat : ℝ) ^ 2).sum = ((col.map fun x => x.toNat ^ 2).sum : ℕ) := by
  induction col with
  | nil => simp
  | cons a l ih =>
    rw [List.map_cons, List.map_cons, List.sum_cons, List.sum_cons, ih]
    push_cast
    rfl

/-- Non-vacuity of `C113_kv`: with 20-bit digits a column of a database of a few pairs meets the hypothesis, and a quarter of
the exchanges return a wrong value. -/
example : ∃ shard, KVShard.new .debug wPrg [7#8] 3 12 wFp0 exSeed wKvs 2 99 40 20 = .ok shard ∧
    ∃ col ∈ shard.db.entries, (2 ^ (31 - 20)) ^ 2 ≤ noiseVar col ∧ 1 / 4 ≤ missRate 20 col := by
  obtain ⟨shard, h1, col, hc, h2, h3⟩ := exOk (KVShard.new .debug wPrg [7#8] 3 12 wFp0 exSeed wKvs 2 99 40 20)
    (fun shard => ∃ col ∈ shard.db.entries, 100 * 2 ^ 22 ≤ (col.map fun x => x.toNat ^ 2).sum ∧
      (col.map fun x => x.toNat ^ 2).sum ≤ 2 ^ 58) (by decide +kernel)
  refine ⟨shard, h1, col, hc, ?_⟩
  have h2' : ((100 * 2 ^ 22 : ℕ) : ℝ) ≤ ((col.map fun x => x.toNat ^ 2).sum : ℕ) := Nat.cast_le.2 h2
  have h3' : (((col.map fun x => x.toNat ^ 2).sum : ℕ) : ℝ) ≤ ((2 ^ 58 : ℕ) : ℝ) := Nat.cast_le.2 h3
  unfold missRate noiseVar
  rw [sum_sq_cast]
  generalize (((col.map fun x => x.toNat ^ 2).sum : ℕ) : ℝ) = V at h2' h3'
  push_cast at h2' h3'
  have hV0 : 0 < V := by linarith
  have hexp : Real.exp (-(3 * (2 ^ 31) ^ 2 / (4 * V))) < 0.003 := by
    refine exp_neg_lt 6 ?_ (by norm_num) (by norm_num)
    rw [le_div_iff₀ (by positivity)]
    push_cast
    linarith
  have hW : (2 ^ (31 - 20)) ^ 2 ≤ 2863311528 / 4294967293 * V := by norm_num; linarith
  refine ⟨hW, ?_⟩
  have hr : (2 ^ (31 - 20)) ^ 2 / (2863311528 / 4294967293 * V) ≤ 1 / 60 := by
    rw [div_le_div_iff₀ (by positivity) (by norm_num)]
    norm_num
    linarith
  have hr2 : (1 - 1 / 60) ^ 2 ≤ (1 - (2 ^ (31 - 20)) ^ 2 / (2863311528 / 4294967293 * V)) ^ 2 :=
    pow_le_pow_left₀ (by norm_num) (by linarith) 2
  have hr3 : (0.96 : ℝ) ≤ (1 - 1 / 60) ^ 2 := by norm_num
  linarith

end Chalamet
