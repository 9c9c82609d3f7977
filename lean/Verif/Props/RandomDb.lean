import Verif.Lemmas.RandomDb
import Verif.Props.Unreliable
import Verif.Props.BenchRun

/-!
# C114: failure rate over random databases

C56 bounds the failure rate for the worst database. The benchmark programs and tests fill their databases with random bytes. Here the
failures are counted over all databases and all error samples together: the mean square of a uniform digit, about a third of the
largest, takes the place of the largest, which makes the rate negligible at all parameters of the Makefile.
-/

namespace Chalamet
open Spec Finset

/-- The bytes of a record. -/
def Spec.recordOf {L : Nat} (x : Fin L → Fin 256) : List U8 := List.ofFn fun k => BitVec.ofNat 8 (x k)

/-- The records of a database of random bytes. -/
def Spec.recordsOf {m L : Nat} (db : Fin m → Fin L → Fin 256) : List (List U8) := List.ofFn fun i => recordOf (db i)

/-- Mean square of a uniformly distributed digit of `b` bits: `(2^b - 1) (2^(b+1) - 1) / 6`. -/
noncomputable def Spec.digitMeanSq (b : Nat) : ℝ := (2 ^ b - 1) * (2 ^ (b + 1) - 1) / 6

/-- Correction term, below 1/100 for the 10-bit digits and `2^16` rows of the defaults. -/
noncomputable def Spec.correction (m b : Nat) : ℝ :=
  3 * (2 ^ (31 - b)) ^ 2 * (2 ^ b - 1) ^ 2 / (4 * (m * digitMeanSq b) ^ 2)

/-- The bound on the failure rate of random databases with `m` rows: like `failureBound`, with the mean square of a digit in place of
the square of the largest digit, up to the correction. -/
noncomputable def Spec.randomFailureBound (m T b : Nat) : ℝ :=
  width T b * (2 * Real.exp (-(3 * (2 ^ (31 - b)) ^ 2 / (4 * (m * digitMeanSq b)) * (1 - correction m b))))

/-- `digitMeanSq` is what its name says. -/
theorem C114_mean_square (b : Nat) : ∑ d : Fin (2 ^ b), ((d : ℕ) : ℝ) ^ 2 = digitMeanSq b * 2 ^ b := by
  rw [sum_sq_fin]
  unfold digitMeanSq
  push_cast
  rw [pow_succ]
  ring

theorem sum_leNat (L : Nat) (G : Nat → ℝ) :
    ∑ x : Fin L → Fin 256, G (leNat (recordOf x)) = ∑ v : Fin (256 ^ L), G v := by
  induction L generalizing G with
  | zero => simp [recordOf, leNat]
  | succ L ih =>
    rw [sum_cons, sum_comm]
    have h : ∀ (t : Fin L → Fin 256) (a : Fin 256), leNat (recordOf (Fin.cons a t : Fin (L + 1) → Fin 256)) =
        a + 256 * leNat (recordOf t) := by
      intro t a
      unfold recordOf
      rw [List.ofFn_succ, leNat, Fin.cons_zero, BitVec.toNat_ofNat, Nat.mod_eq_of_lt (by have := a.2; omega)]
      simp only [Fin.cons_succ]
    simp only [h]
    rw [ih (fun N => ∑ a : Fin 256, G (a + 256 * N))]
    rw [← Fintype.sum_prod_type' (f := fun (v : Fin (256 ^ L)) (a : Fin 256) => G (a + 256 * v))]
    exact Fintype.sum_equiv (finProdFinEquiv.trans (finCongr (by rw [pow_succ]))) _ _ (fun x => rfl)

/-- Mean of `exp (y d^2)` over the `j`-th digit `d` of random bytes. -/
theorem mean_exp_digit (L b j : Nat) (hj : b * j ≤ 8 * L) (y : ℝ) (hy : 0 ≤ y) (hY : y * (2 ^ b - 1) ^ 2 ≤ 1) :
    ∑ x : Fin L → Fin 256, Real.exp (y * ((digit b (leNat (recordOf x)) j : ℕ) : ℝ) ^ 2) ≤
      256 ^ L * Real.exp (y * digitMeanSq b * (1 + y * (2 ^ b - 1) ^ 2)) := by
  rw [sum_leNat L (fun N => Real.exp (y * ((digit b N j : ℕ) : ℝ) ^ 2))]
  set r := min b (8 * L - b * j) with hr
  set A := 2 ^ (8 * L - b * j - r) with hA
  have hpow : 256 ^ L = A * (2 ^ r * 2 ^ (b * j)) := by
    rw [hA, ← pow_add, ← pow_add, show (256 : ℕ) = 2 ^ 8 by norm_num, ← pow_mul]
    congr 1
    omega
  have hdig : ∀ v < 256 ^ L, digit b v j = v / 2 ^ (b * j) % 2 ^ r := by
    intro v hv
    unfold digit
    rcases Nat.le_total b (8 * L - b * j) with h | h
    · rw [show r = b by omega]
    · have hr' : r = 8 * L - b * j := by omega
      have hA1 : A = 1 := by rw [hA, hr']; simp
      have hlt : v / 2 ^ (b * j) < 2 ^ r := by
        rw [Nat.div_lt_iff_lt_mul (by positivity)]
        rw [hpow, hA1, one_mul] at hv
        exact hv
      rw [Nat.mod_eq_of_lt hlt, Nat.mod_eq_of_lt (lt_of_lt_of_le hlt (Nat.pow_le_pow_right (by norm_num) (by omega)))]
  have h1 : ∑ v : Fin (256 ^ L), Real.exp (y * ((digit b v j : ℕ) : ℝ) ^ 2) =
      ∑ v : Fin (A * (2 ^ r * 2 ^ (b * j))), Real.exp (y * ((v / 2 ^ (b * j) % 2 ^ r : ℕ) : ℝ) ^ 2) := by
    refine Fintype.sum_equiv (finCongr hpow) _ _ (fun v => ?_)
    rw [hdig v v.2]
    rfl
  rw [h1, sum_mid A (2 ^ r) (2 ^ (b * j)) (by positivity) (fun d => Real.exp (y * (d : ℝ) ^ 2))]
  have h2 := mean_exp_le (2 ^ r) (2 ^ b) (Nat.one_le_two_pow) (Nat.pow_le_pow_right (by norm_num) (by omega)) y hy
    (by push_cast; exact hY)
  push_cast at h2
  have e : ((256 : ℝ) ^ L) = A * 2 ^ (b * j) * 2 ^ r := by
    have : ((256 ^ L : ℕ) : ℝ) = ((A * (2 ^ r * 2 ^ (b * j)) : ℕ) : ℝ) := by rw [hpow]
    push_cast at this
    rw [this]; ring
  rw [e, mul_assoc ((A : ℝ) * 2 ^ (b * j))]
  push_cast
  refine mul_le_mul_of_nonneg_left ?_ (by positivity)
  unfold digitMeanSq
  rw [pow_succ, mul_comm ((2 : ℝ) ^ b) 2]
  exact h2

theorem digitMeanSq_pos {b : Nat} (hb1 : 1 ≤ b) : 0 < digitMeanSq b := by
  unfold digitMeanSq
  have h1 : (2 : ℝ) ^ 1 ≤ 2 ^ b := pow_le_pow_right₀ (by norm_num) hb1
  have h2 : (2 : ℝ) ^ 1 ≤ 2 ^ (b + 1) := pow_le_pow_right₀ (by norm_num) (by omega)
  have : (0 : ℝ) < (2 ^ b - 1) * (2 ^ (b + 1) - 1) := by apply mul_pos <;> linarith
  positivity

open scoped Classical in
/-- Tail bound for random rows, with the slope that gives `randomFailureBound`. -/
theorem rows_tail {m b : Nat} (hb1 : 1 ≤ b) (hm0 : 0 < m) (hcor : correction m b ≤ 1) {X : Type} [Fintype X] (c : X → Nat)
    (hmean : ∀ y : ℝ, 0 ≤ y → y * (2 ^ b - 1) ^ 2 ≤ 1 → ∑ x, Real.exp (y * (c x : ℝ) ^ 2) ≤
      Fintype.card X * Real.exp (y * digitMeanSq b * (1 + y * (2 ^ b - 1) ^ 2))) :
    ((univ.filter fun p : (Fin m → X) × (Fin m → Fin 4294967293) =>
        (2 : ℝ) ^ (31 - b) ≤ |noiseOf 1431655764 (fun i => (c (p.1 i) : ℝ)) p.2|).card : ℝ) ≤
      2 * Real.exp (-(3 * (2 ^ (31 - b)) ^ 2 / (4 * (m * digitMeanSq b)) * (1 - correction m b))) *
        (Fintype.card X ^ m * 4294967293 ^ m) := by
  have hV := digitMeanSq_pos hb1
  have hm : (0 : ℝ) < m := by exact_mod_cast hm0
  set V := digitMeanSq b with hVd
  set a : ℝ := 2 ^ (31 - b) with ha
  have ha0 : 0 < a := by positivity
  set l := 3 * a / (2 * (m * V)) with hl
  have hl0 : 0 ≤ l := by positivity
  have hY : l ^ 2 / 3 * (2 ^ b - 1) ^ 2 = correction m b := by
    unfold correction
    rw [← hVd, ← ha, hl]
    field_simp
    ring
  have h1 := hmean (l ^ 2 / 3) (by positivity) (by rw [hY]; exact hcor)
  rw [hY] at h1
  have h2 := tail_random (m := m) 1431655764 (fun x => (c x : ℝ)) a l _ hl0 (by
    refine le_trans (le_of_eq (sum_congr rfl fun x _ => ?_)) h1
    congr 1
    ring)
  have e1 : (3 * ((1431655764 : ℕ) : ℝ) + 1) = 4294967293 := by norm_num
  rw [e1] at h2
  have e2 : Real.exp (-(l * a)) * Real.exp (l ^ 2 / 3 * V * (1 + correction m b)) ^ m =
      Real.exp (-(3 * a ^ 2 / (4 * (m * V)) * (1 - correction m b))) := by
    rw [← Real.exp_nat_mul, ← Real.exp_add]
    congr 1
    rw [hl]
    field_simp
    ring
  rw [e2] at h2
  exact h2

theorem recordsOf_length {m L : Nat} (db : Fin m → Fin L → Fin 256) : (recordsOf db).length = m := by simp [recordsOf]

theorem recordsOf_get {m L : Nat} (db : Fin m → Fin L → Fin 256) (i : Fin m) :
    (recordsOf db)[(i : ℕ)]'(by rw [recordsOf_length]; exact i.2) = recordOf (db i) := by
  simp [recordsOf]

theorem recordOf_length {L : Nat} (x : Fin L → Fin 256) : (recordOf x).length = L := by simp [recordOf]

/-- The noise on the `j`-th column of a random database. -/
theorem noise_records {m L b j : Nat} (hb : b ≤ 31) (db : Fin m → Fin L → Fin 256) (t : Fin m → Fin 4294967293) {e rest : List U32}
    (he : randomTernaryVector m (words t) = .ok (e, rest)) :
    dot e (column b j (recordsOf db)) =
      BitVec.ofInt 32 (∑ i, clsOf 1431655764 (t i) * ((digit b (leNat (recordOf (db i))) j : ℕ) : ℤ)) := by
  rw [words_sampled] at he
  simp only [Res.ok.injEq, Prod.mk.injEq] at he
  rw [← he.1]
  have hc : column b j (recordsOf db) =
      List.ofFn fun i => BitVec.ofNat 32 (digit b (leNat (recordOf (db i))) j) := by
    unfold column recordsOf
    rw [List.map_ofFn]
    rfl
  rw [hc]
  simp only [ternaryOf_clsOf]
  rw [dot_ofFn]
  congr 1
  refine sum_congr rfl fun i _ => ?_
  rw [digit_toNat (by omega)]

open scoped Classical in
/-- One column: over all databases and error samples. -/
theorem C114_column (m L b j : Nat) (hb1 : 1 ≤ b) (hb : b ≤ 31) (hm0 : 0 < m) (hj : b * j ≤ 8 * L) (hcor : correction m b ≤ 1) :
    ((univ.filter fun p : (Fin m → Fin L → Fin 256) × (Fin m → Fin 4294967293) =>
        ∃ e rest, randomTernaryVector m (words p.2) = .ok (e, rest) ∧
          ¬ InWindow b (dot e (column b j (recordsOf p.1)))).card : ℝ) ≤
      2 * Real.exp (-(3 * (2 ^ (31 - b)) ^ 2 / (4 * (m * digitMeanSq b)) * (1 - correction m b))) *
        ((256 ^ L) ^ m * 4294967293 ^ m) := by
  have h := rows_tail (m := m) hb1 hm0 hcor (X := Fin L → Fin 256) (fun x => digit b (leNat (recordOf x)) j) (by
    intro y hy hY
    have := mean_exp_digit L b j hj y hy hY
    simpa using this)
  have ecard : (Fintype.card (Fin L → Fin 256) : ℝ) = 256 ^ L := by simp
  rw [ecard] at h
  refine le_trans (Nat.cast_le.2 (card_le_card ?_)) h
  intro p hp
  rw [mem_filter] at hp
  obtain ⟨_, e, rest, he, hw⟩ := hp
  refine mem_filter.2 ⟨mem_univ _, ?_⟩
  by_contra hlt
  rw [not_le] at hlt
  apply hw
  rw [noise_records hb p.1 p.2 he]
  apply inWindow_of_abs_lt hb1
  unfold noiseOf at hlt
  beta_reduce at hlt
  have h2 : ((|∑ i, clsOf 1431655764 (p.2 i) * ((digit b (leNat (recordOf (p.1 i))) j : ℕ) : ℤ)| : ℤ) : ℝ) <
      ((2 ^ (31 - b) : ℤ) : ℝ) := by
    push_cast
    exact_mod_cast hlt
  exact_mod_cast h2

open scoped Classical in
/-- **C114 (index retrieval).** Fill a database of `m` records of `L` bytes with random bytes. Fix the seed of the public matrix, the
secret and the index; among all pairs of a database and an error sample at most the fraction `randomFailureBound m T b` makes the
exchange return a wrong row. A shard is built from every such database. -/
theorem C114_index (prof : Profile) (prg : Prg) (seed : List U8) (n m L T b : Nat) (hb1 : 1 ≤ b) (hb : b ≤ 31) (hT : T < 2 ^ 64)
    (hm0 : 0 < m) (hL : T ≤ 8 * L) (hcor : correction m b ≤ 1) (ts s : List U32) (hs : randomTernaryVector n ts = .ok (s, []))
    (i : Fin m) :
    (∀ db : Fin m → Fin L → Fin 256, ∃ shard,
      Shard.fromBase64Strings prof prg seed ((recordsOf db).map b64Encode) n m T b = .ok shard) ∧
    ((univ.filter fun p : (Fin m → Fin L → Fin 256) × (Fin m → Fin 4294967293) =>
        ∃ shard row, Shard.fromBase64Strings prof prg seed ((recordsOf p.1).map b64Encode) n m T b = .ok shard ∧
          indexExchange prof prg shard i (ts ++ words p.2) = .ok row ∧
          row ≠ rowOf b (width T b) (recordOf (p.1 i))).card : ℝ) ≤
      randomFailureBound m T b * ((256 ^ L) ^ m * 4294967293 ^ m) := by
  have hdec : ∀ db : Fin m → Fin L → Fin 256, ((recordsOf db).map b64Encode).map b64Decode = (recordsOf db).map Res.ok := by
    intro db
    rw [List.map_map]
    exact List.map_congr_left fun e _ => b64Decode_encode e
  have hlen : ∀ db : Fin m → Fin L → Fin 256, ∀ e ∈ (recordsOf db).take m, T ≤ 8 * e.length := by
    intro db e he
    have he' := List.mem_of_mem_take he
    unfold recordsOf at he'
    rw [List.mem_ofFn] at he'
    obtain ⟨k, rfl⟩ := he'
    rw [recordOf_length]
    exact hL
  have htake : ∀ db : Fin m → Fin L → Fin 256, (recordsOf db).take m = recordsOf db := fun db =>
    List.take_of_length_le (by rw [recordsOf_length])
  have hC01 := fun db : Fin m → Fin L → Fin 256 =>
    C01_index_pir prof prg seed ((recordsOf db).map b64Encode) (recordsOf db) n m T b hb1 hb hT hm0
      (by rw [recordsOf_length]) (hdec db) (hlen db)
  refine ⟨fun db => ?_, ?_⟩
  · obtain ⟨shard, h, _⟩ := hC01 db
    exact ⟨shard, h⟩
  · -- union bound over the columns
    have hcol : ∀ w, (∀ j < w, b * j ≤ 8 * L) →
        ((univ.filter fun p : (Fin m → Fin L → Fin 256) × (Fin m → Fin 4294967293) =>
          ∃ e rest, randomTernaryVector m (words p.2) = .ok (e, rest) ∧
            ∃ j < w, ¬ InWindow b (dot e (column b j (recordsOf p.1)))).card : ℝ) ≤
        w * (2 * Real.exp (-(3 * (2 ^ (31 - b)) ^ 2 / (4 * (m * digitMeanSq b)) * (1 - correction m b)))) *
          ((256 ^ L) ^ m * 4294967293 ^ m) := by
      intro w
      induction w with
      | zero => intro _; simp
      | succ w ih =>
        intro hw
        have h1 := ih (fun j hj => hw j (by omega))
        have h2 := C114_column m L b w hb1 hb hm0 (hw w (by omega)) hcor
        have h3 : (univ.filter fun p : (Fin m → Fin L → Fin 256) × (Fin m → Fin 4294967293) =>
            ∃ e rest, randomTernaryVector m (words p.2) = .ok (e, rest) ∧
              ∃ j < w + 1, ¬ InWindow b (dot e (column b j (recordsOf p.1)))) ⊆
            (univ.filter fun p : (Fin m → Fin L → Fin 256) × (Fin m → Fin 4294967293) =>
              ∃ e rest, randomTernaryVector m (words p.2) = .ok (e, rest) ∧
                ∃ j < w, ¬ InWindow b (dot e (column b j (recordsOf p.1)))) ∪
            (univ.filter fun p : (Fin m → Fin L → Fin 256) × (Fin m → Fin 4294967293) =>
              ∃ e rest, randomTernaryVector m (words p.2) = .ok (e, rest) ∧
                ¬ InWindow b (dot e (column b w (recordsOf p.1)))) := by
          intro p hp
          simp only [mem_filter, mem_univ, true_and, mem_union] at hp ⊢
          obtain ⟨e, rest, he, j, hj, hn⟩ := hp
          rcases Nat.lt_succ_iff_lt_or_eq.1 hj with hj | rfl
          · exact Or.inl ⟨e, rest, he, j, hj, hn⟩
          · exact Or.inr ⟨e, rest, he, hn⟩
        have h4 := (Nat.cast_le (α := ℝ)).2 (le_trans (card_le_card h3) (card_union_le _ _))
        rw [Nat.cast_add] at h4
        push_cast
        linarith
    have hw : ∀ j < width T b, b * j ≤ 8 * L := by
      intro j hj
      have h1 : j * b < T := by
        unfold width at hj
        have h2 : (j + 1) * b ≤ T + b - 1 := (Nat.le_div_iff_mul_le (by omega)).1 hj
        rw [Nat.add_mul] at h2
        omega
      rw [mul_comm]
      omega
    refine le_trans (Nat.cast_le.2 (card_le_card ?_)) (hcol (width T b) hw)
    intro p hp
    simp only [mem_filter, mem_univ, true_and] at hp ⊢
    obtain ⟨shard, row, hsh, hex, hne⟩ := hp
    obtain ⟨shard', h1, h2⟩ := hC01 p.1
    rw [hsh] at h1
    cases h1
    unfold indexExchange at hex
    obtain ⟨⟨qp, tape'⟩, hgen, hex⟩ := Res.bind_eq_ok.1 hex
    obtain ⟨s', t1, e, hs', he, hall⟩ := h2 _ _ _ hgen
    rw [randomTernaryVector_append hs] at hs'
    simp only [List.nil_append, Res.ok.injEq, Prod.mk.injEq] at hs'
    obtain ⟨rfl, rfl⟩ := hs'
    refine ⟨e, tape', he, ?_⟩
    simp only at hex
    obtain ⟨q, hq, hex⟩ := Res.bind_eq_ok.1 hex
    obtain ⟨bytes, hby, hex⟩ := Res.bind_eq_ok.1 hex
    obtain ⟨resp, hre, hex⟩ := Res.bind_eq_ok.1 hex
    obtain ⟨hi', bytes', resp', row', hby', hre', hp', _, _, hiff⟩ :=
      hall i (qp.generateIndexQuery prof i).1 q (Prod.ext rfl hq)
    rw [hby] at hby'
    cases hby'
    rw [hre] at hre'
    cases hre'
    rw [hex] at hp'
    cases hp'
    by_contra hno
    apply hne
    rw [← recordsOf_get p.1 i, hiff]
    intro j hj
    by_contra hw
    rw [htake] at hw
    exact hno ⟨j, hj, hw⟩

/-- The database of the benchmark program (and of the tests) is `recordsOf` of its random bytes. -/
theorem C114_bench_database (ent : Nat → U8) (m L : Nat) :
    benchDbEles ent m L = (recordsOf fun (i : Fin m) (k : Fin L) => ⟨(ent (i * L + k)).toNat, (ent (i * L + k)).isLt⟩).map b64Encode := by
  unfold benchDbEles recordsOf recordOf
  rw [List.map_ofFn]
  apply List.ext_getElem
  · simp
  · intro i h1 h2
    simp only [List.length_map, List.length_range] at h1
    simp only [List.getElem_map, List.getElem_range, List.getElem_ofFn, Function.comp]
    congr 1
    apply List.ext_getElem
    · simp
    · intro k h3 h4
      simp

theorem randomFailureBound_lt {m T b : Nat} (w k : Nat) (hw : width T b = w) {B : ℝ}
    (hx : (k : ℝ) ≤ 3 * (2 ^ (31 - b)) ^ 2 / (4 * (m * digitMeanSq b)) * (1 - correction m b))
    (hB : 2 * w < B * 2.718 ^ k) (h0 : 0 < B) (hw0 : 0 < w) : randomFailureBound m T b < B := by
  have hwp : (0 : ℝ) < w := Nat.cast_pos.2 hw0
  have h := exp_neg_lt k hx (B := B / (2 * w)) (by
    rw [div_mul_eq_mul_div, lt_div_iff₀ (by positivity)]; linarith) (by positivity)
  rw [lt_div_iff₀ (by positivity)] at h
  unfold randomFailureBound
  rw [hw]
  linarith

/-- **C114 (benchmarked parameters).** The bound at the parameters of the index benchmark targets of the Makefile: rows, bits per
element, bits per digit. The correction is at most one at all of them. -/
theorem C114_published_parameters (k T b : Nat) (B : ℝ)
    (hset : (k, T, b, B) ∈ [(16, 2 ^ 13, 10, 1 / 2 ^ 190), (17, 2 ^ 13, 10, 1 / 2 ^ 90), (18, 2 ^ 13, 10, 1 / 2 ^ 40),
      (19, 2 ^ 13, 9, 1 / 2 ^ 250), (20, 2 ^ 13, 9, 1 / 2 ^ 190), (14, 819200, 10, 1 / 2 ^ 250),
      (17, 245760, 10, 1 / 2 ^ 85), (20, 2 ^ 11, 9, (1 : ℝ) / 2 ^ 190)]) :
    correction (2 ^ k) b ≤ 1 ∧ randomFailureBound (2 ^ k) T b < B := by
  simp only [List.mem_cons, Prod.mk.injEq, List.not_mem_nil, or_false] at hset
  rcases hset with ⟨rfl, rfl, rfl, rfl⟩ | ⟨rfl, rfl, rfl, rfl⟩ | ⟨rfl, rfl, rfl, rfl⟩ | ⟨rfl, rfl, rfl, rfl⟩ |
    ⟨rfl, rfl, rfl, rfl⟩ | ⟨rfl, rfl, rfl, rfl⟩ | ⟨rfl, rfl, rfl, rfl⟩ | ⟨rfl, rfl, rfl, rfl⟩
  · exact ⟨by norm_num [correction, digitMeanSq], randomFailureBound_lt 820 142 (by decide)
      (by norm_num [correction, digitMeanSq]) (by norm_num) (by norm_num) (by norm_num)⟩
  · exact ⟨by norm_num [correction, digitMeanSq], randomFailureBound_lt 820 71 (by decide)
      (by norm_num [correction, digitMeanSq]) (by norm_num) (by norm_num) (by norm_num)⟩
  · exact ⟨by norm_num [correction, digitMeanSq], randomFailureBound_lt 820 36 (by decide)
      (by norm_num [correction, digitMeanSq]) (by norm_num) (by norm_num) (by norm_num)⟩
  · exact ⟨by norm_num [correction, digitMeanSq], randomFailureBound_lt 911 190 (by decide)
      (by norm_num [correction, digitMeanSq]) (by norm_num) (by norm_num) (by norm_num)⟩
  · exact ⟨by norm_num [correction, digitMeanSq], randomFailureBound_lt 911 143 (by decide)
      (by norm_num [correction, digitMeanSq]) (by norm_num) (by norm_num) (by norm_num)⟩
  · exact ⟨by norm_num [correction, digitMeanSq], randomFailureBound_lt 81920 190 (by decide)
      (by norm_num [correction, digitMeanSq]) (by norm_num) (by norm_num) (by norm_num)⟩
  · exact ⟨by norm_num [correction, digitMeanSq], randomFailureBound_lt 24576 71 (by decide)
      (by norm_num [correction, digitMeanSq]) (by norm_num) (by norm_num) (by norm_num)⟩
  · exact ⟨by norm_num [correction, digitMeanSq], randomFailureBound_lt 228 143 (by decide)
      (by norm_num [correction, digitMeanSq]) (by norm_num) (by norm_num) (by norm_num)⟩

open scoped Classical in
/-- **C114 (example).** A random database of `2^18` records of a kilobyte in 10-bit digits, the largest of the Makefile for which C56
gives only 1/90: fewer than one in `2^40` pairs of a database and an error sample gives a wrong row, for every secret. -/
theorem C114_quarter_million (prof : Profile) (prg : Prg) (seed : List U8) (n : Nat) (ts s : List U32)
    (hs : randomTernaryVector n ts = .ok (s, [])) (i : Fin (2 ^ 18)) :
    ((univ.filter fun p : (Fin (2 ^ 18) → Fin 1024 → Fin 256) × (Fin (2 ^ 18) → Fin 4294967293) =>
        ∃ shard row, Shard.fromBase64Strings prof prg seed ((recordsOf p.1).map b64Encode) n (2 ^ 18) 8192 10 = .ok shard ∧
          indexExchange prof prg shard i (ts ++ words p.2) = .ok row ∧
          row ≠ rowOf 10 (width 8192 10) (recordOf (p.1 i))).card : ℝ) * 2 ^ 40 ≤
      (256 ^ 1024) ^ (2 ^ 18) * 4294967293 ^ (2 ^ 18) := by
  have hp := C114_published_parameters 18 (2 ^ 13) 10 (1 / 2 ^ 40) (by simp)
  have h := (C114_index prof prg seed n (2 ^ 18) 1024 (2 ^ 13) 10 (by norm_num) (by norm_num) (by norm_num) (by norm_num)
    (by norm_num) hp.1 ts s hs i).2
  have h1 : ∀ a y z : ℝ, a ≤ z * y → z < 1 / 2 ^ 40 → 0 ≤ y → a * 2 ^ 40 ≤ y := by
    intro a y z ha hz hy
    have : a ≤ 1 / 2 ^ 40 * y := ha.trans (mul_le_mul_of_nonneg_right hz.le hy)
    linarith
  exact h1 _ _ _ h hp.2 (mul_nonneg (pow_nonneg (pow_nonneg (by norm_num) _) _) (pow_nonneg (by norm_num) _))

/-- The secret sampled from 1774 zero words, and a small random database. -/
example : ∃ s, randomTernaryVector 1774 (List.replicate 1774 0#32) = .ok (s, []) := by
  have := randomTernaryVector_accepted (List.replicate 1774 0#32) (by
    intro x hx
    rw [List.eq_of_mem_replicate hx]
    decide)
  rw [List.length_replicate] at this
  exact ⟨_, this⟩

example : recordsOf (m := 2) (L := 2) ![![1, 2], ![3, 255]] = [[1#8, 2#8], [3#8, 255#8]] := by decide

end Chalamet
