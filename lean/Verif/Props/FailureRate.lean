import Verif.Lemmas.Hoeffding
import Verif.Props.IndexPir
import Verif.Props.Kv
import Mathlib.Analysis.Complex.ExponentialBounds

/-!
# Failure rate of retrieval: C56

The error vector of a query is drawn by rejection sampling from the operating system's generator: each
coordinate consumes one *accepted* word, that is one of `0 .. 4294967292`. A sample point of the noise is
therefore a function `t : Fin m → Fin 4294967293`, and `words t` is the tape holding these words. The
statements below count sample points; dividing by `4294967293 ^ m`, their total number, gives the
probability over a uniform generator.
-/

namespace Chalamet
open Spec

/-- The tape consisting of the given accepted words. -/
def Spec.words {m : Nat} (t : Fin m → Fin 4294967293) : List U32 :=
  List.ofFn fun i => BitVec.ofNat 32 (t i)

/-- The whole index exchange for row `i`, with all client randomness taken from `tape`: expand the public
parameters, make query parameters and the query, let the server answer, deserialise and parse. -/
def indexExchange (prof : Profile) (prg : Prg) (shard : Shard) (i : Nat) (tape : List U32) :
    Res (List U32) := do
  let (qp, _) ← generateIndexQueryParams (commonParamsFrom prg shard.baseParams.publicSeed
    shard.baseParams.dim shard.baseParams.m) shard.baseParams tape
  let q ← (qp.generateIndexQuery prof i).2
  let bytes ← shard.respond q
  let resp ← bincodeDeserialize bytes
  (qp.generateIndexQuery prof i).1.parseIndexRow prof resp

/-- The whole keyword exchange for `key`. -/
def kvExchange (prof : Profile) (prg : Prg) (shard : KVShard) (key : Key) (tape : List U32) :
    Res (List U32) := do
  let (qp, _) ← generateKvQueryParams (commonParamsFrom prg shard.baseParams.publicSeed
    shard.baseParams.dim shard.baseParams.m) shard.baseParams tape
  let q ← (qp.generateKvQuery prof key).2
  let bytes ← shard.respond q
  let resp ← bincodeDeserialize bytes
  (qp.generateKvQuery prof key).1.parseKvRow prof resp key

/-! ## Helper lemmas -/

theorem randomTernary_append {ts r tl : List U32} {x : U32} (h : randomTernary ts = .ok (x, tl)) :
    randomTernary (ts ++ r) = .ok (x, tl ++ r) := by
  induction ts with
  | nil => simp [randomTernary] at h
  | cons v t ih =>
    rw [randomTernary] at h
    rw [List.cons_append, randomTernary]
    split at h
    · rename_i hc; rw [if_pos hc]; exact ih h
    · rename_i hc
      simp only [Res.ok.injEq, Prod.mk.injEq] at h
      rw [if_neg hc, h.1, h.2]

theorem randomTernaryVector_append {n : Nat} {ts r tl s : List U32}
    (h : randomTernaryVector n ts = .ok (s, tl)) :
    randomTernaryVector n (ts ++ r) = .ok (s, tl ++ r) := by
  induction n generalizing ts tl s with
  | zero =>
    simp only [randomTernaryVector, Res.ok.injEq, Prod.mk.injEq] at h
    simp [randomTernaryVector, h.1, h.2]
  | succ n ih =>
    rw [randomTernaryVector] at h
    obtain ⟨⟨x, t1⟩, hx, h⟩ := Res.bind_eq_ok.1 h
    obtain ⟨⟨row, t2⟩, hr, h⟩ := Res.bind_eq_ok.1 h
    simp only [Res.ok.injEq, Prod.mk.injEq] at h
    rw [randomTernaryVector, randomTernary_append hx]
    simp only [Res.bind_ok]
    rw [ih hr]
    simp only [Res.bind_ok]
    rw [h.1, h.2]

theorem randomTernaryVector_accepted (l : List U32)
    (h : ∀ x ∈ l, x.toNat ≤ ternaryRejectionSamplingMax) :
    randomTernaryVector l.length l = .ok (l.map ternaryOf, []) := by
  induction l with
  | nil => rfl
  | cons a l ih =>
    rw [List.length_cons, randomTernaryVector, randomTernary, if_neg (by have := h a (by simp); omega)]
    simp only [Res.bind_ok]
    rw [ih (fun x hx => h x (by simp [hx]))]
    simp

theorem ofNat_accepted (v : Fin 4294967293) : (BitVec.ofNat 32 (v : Nat)).toNat = v := by
  rw [BitVec.toNat_ofNat]
  exact Nat.mod_eq_of_lt (by have := v.2; omega)

theorem words_sampled {m : Nat} (t : Fin m → Fin 4294967293) :
    randomTernaryVector m (words t) =
      .ok (List.ofFn fun i => ternaryOf (BitVec.ofNat 32 (t i)), []) := by
  have hl : (words t).length = m := by simp [words]
  have hM : ternaryRejectionSamplingMax = 4294967292 := rfl
  have h := randomTernaryVector_accepted (words t) (by
    intro x hx
    simp only [words, List.mem_ofFn] at hx
    obtain ⟨i, rfl⟩ := hx
    rw [ofNat_accepted, hM]
    have := (t i).2
    omega)
  rw [hl] at h
  rw [h, words, List.map_ofFn]
  rfl

theorem ternaryOf_clsOf (v : Fin 4294967293) :
    ternaryOf (BitVec.ofNat 32 v) = BitVec.ofInt 32 (clsOf 1431655764 v) := by
  have hI : ternaryIntervalSize = 1431655764 := rfl
  unfold ternaryOf clsOf
  rw [ofNat_accepted, hI]
  by_cases h1 : (v : Nat) ≤ 1431655764
  · rw [if_neg (by omega), if_neg (by omega), if_pos h1]; rfl
  · by_cases h2 : (v : Nat) ≤ 2 * 1431655764
    · rw [if_pos (by omega), if_neg h1, if_pos h2]; rfl
    · rw [if_neg (by omega), if_pos (by omega), if_neg h1, if_neg h2]; rfl

theorem dot_ofFn {m : Nat} (f : Fin m → Int) (c : Fin m → U32) :
    dot (List.ofFn fun i => BitVec.ofInt 32 (f i)) (List.ofFn c) =
      BitVec.ofInt 32 (∑ i, f i * (c i).toNat) := by
  induction m with
  | zero => simp [dot]
  | succ m ih =>
    rw [List.ofFn_succ, List.ofFn_succ, dot, ih (fun i => f i.succ) (fun i => c i.succ),
      Fin.sum_univ_succ, BitVec.ofInt_add, BitVec.ofInt_mul]
    simp

theorem inWindow_of_abs_lt {b : Nat} (hb1 : 1 ≤ b) {z : Int} (h : |z| < 2 ^ (31 - b)) :
    InWindow b (BitVec.ofInt 32 z) := by
  have hp : (2 : Nat) ^ (31 - b) ≤ 2 ^ 30 := Nat.pow_le_pow_right (by omega) (by omega)
  have hz : ((2 : Int) ^ (31 - b)) = ((2 ^ (31 - b) : Nat) : Int) := by norm_cast
  rw [hz] at h
  obtain ⟨h1, h2⟩ := abs_lt.1 h
  unfold InWindow
  rw [signed_ofInt (by omega) (by omega), hz]
  omega

open scoped Classical in
/-- Tail bound for one column with any bound `S` on the sum of squares. -/
theorem column_rate {b m : Nat} (hb1 : 1 ≤ b) {col : List U32} (hm : col.length = m) {S : ℝ}
    (hS : (col.map fun x => (x.toNat : ℝ) ^ 2).sum ≤ S) :
    ((Finset.univ.filter fun t : Fin m → Fin 4294967293 =>
        ∃ e rest, randomTernaryVector m (words t) = .ok (e, rest) ∧ ¬ InWindow b (dot e col)).card : ℝ) ≤
      2 * Real.exp (-(3 * (2 ^ (31 - b)) ^ 2 / (4 * S))) * 4294967293 ^ m := by
  subst hm
  have hcol : List.ofFn (fun i : Fin col.length => col[i]) = col := by simp
  have hsum : (col.map fun x => (x.toNat : ℝ) ^ 2).sum =
      ∑ i : Fin col.length, ((col[i].toNat : ℝ)) ^ 2 := by
    conv_lhs => rw [← hcol]
    rw [List.map_ofFn, List.sum_ofFn]
    rfl
  rw [hsum] at hS
  have h := tail_two 1431655764 (fun i : Fin col.length => (col[i].toNat : ℝ)) (2 ^ (31 - b)) S
    (by positivity) hS
  have e1 : (3 * ((1431655764 : ℕ) : ℝ) + 1) = 4294967293 := by norm_num
  rw [e1] at h
  refine le_trans (Nat.cast_le.2 (Finset.card_le_card ?_)) h
  intro t ht
  rw [Finset.mem_filter] at ht
  obtain ⟨_, e, rest, he, hw⟩ := ht
  refine Finset.mem_filter.2 ⟨Finset.mem_univ _, ?_⟩
  rw [words_sampled] at he
  simp only [Res.ok.injEq, Prod.mk.injEq] at he
  by_contra hlt
  rw [not_le] at hlt
  apply hw
  rw [← he.1]
  have hd := dot_ofFn (fun i => clsOf 1431655764 (t i)) (fun i : Fin col.length => col[i])
  rw [hcol] at hd
  simp only [← ternaryOf_clsOf] at hd
  rw [hd]
  apply inWindow_of_abs_lt hb1
  have h2 : ((|∑ i, clsOf 1431655764 (t i) * (col[i].toNat : ℤ)| : ℤ) : ℝ) < ((2 ^ (31 - b) : ℤ) : ℝ) := by
    push_cast
    exact_mod_cast hlt
  exact_mod_cast h2

theorem sum_sq_le {b : Nat} {col : List U32} (h : ∀ x ∈ col, x.toNat < 2 ^ b) :
    (col.map fun x => (x.toNat : ℝ) ^ 2).sum ≤ col.length * (2 ^ b - 1) ^ 2 := by
  induction col with
  | nil => simp
  | cons a l ih =>
    have h1 : (a.toNat : ℝ) ≤ 2 ^ b - 1 := by
      have h2 := h a (by simp)
      have h3 : ((a.toNat + 1 : ℕ) : ℝ) ≤ ((2 ^ b : ℕ) : ℝ) := Nat.cast_le.2 h2
      push_cast at h3
      linarith
    have h2 : (a.toNat : ℝ) ^ 2 ≤ (2 ^ b - 1) ^ 2 := by
      have : (0 : ℝ) ≤ a.toNat := Nat.cast_nonneg _
      gcongr
    have h3 := ih (fun x hx => h x (by simp [hx]))
    rw [List.map_cons, List.sum_cons, List.length_cons]
    push_cast
    linarith

open scoped Classical in
/-- Union bound over several columns. -/
theorem columns_rate {b m : Nat} (hb1 : 1 ≤ b) (cols : List (List U32))
    (hm : ∀ col ∈ cols, col.length = m ∧ ∀ x ∈ col, x.toNat < 2 ^ b) :
    ((Finset.univ.filter fun t : Fin m → Fin 4294967293 =>
        ∃ e rest, randomTernaryVector m (words t) = .ok (e, rest) ∧
          ∃ col ∈ cols, ¬ InWindow b (dot e col)).card : ℝ) ≤
      cols.length * (2 * Real.exp (-(3 * (2 ^ (31 - b)) ^ 2 / (4 * (m * (2 ^ b - 1) ^ 2))))) *
        4294967293 ^ m := by
  induction cols with
  | nil => simp
  | cons c cs ih =>
    have h1 := column_rate hb1 (hm c (by simp)).1
      (S := m * (2 ^ b - 1) ^ 2) (by
        have h := sum_sq_le (hm c (by simp)).2
        rwa [(hm c (by simp)).1] at h)
    have h2 := ih (fun col hc => hm col (by simp [hc]))
    have h3 : (Finset.univ.filter fun t : Fin m → Fin 4294967293 =>
        ∃ e rest, randomTernaryVector m (words t) = .ok (e, rest) ∧
          ∃ col ∈ c :: cs, ¬ InWindow b (dot e col)) ⊆
        (Finset.univ.filter fun t : Fin m → Fin 4294967293 =>
          ∃ e rest, randomTernaryVector m (words t) = .ok (e, rest) ∧ ¬ InWindow b (dot e c)) ∪
        (Finset.univ.filter fun t : Fin m → Fin 4294967293 =>
          ∃ e rest, randomTernaryVector m (words t) = .ok (e, rest) ∧
            ∃ col ∈ cs, ¬ InWindow b (dot e col)) := by
      intro t ht
      simp only [Finset.mem_filter, Finset.mem_univ, true_and, Finset.mem_union] at ht ⊢
      obtain ⟨e, rest, he, col, hc, hw⟩ := ht
      rcases List.mem_cons.1 hc with rfl | hc
      · exact Or.inl ⟨e, rest, he, hw⟩
      · exact Or.inr ⟨e, rest, he, col, hc, hw⟩
    have h4 := (Nat.cast_le (α := ℝ)).2 (le_trans (Finset.card_le_card h3) (Finset.card_union_le _ _))
    rw [Nat.cast_add] at h4
    rw [List.length_cons]
    push_cast
    linarith

/-! ## C56 -/

open scoped Classical in
/-- **C56 (one column).** For every column `col` of words, the fraction of noise samples whose noise term
falls outside the decryption window is at most `2 exp (-3 (D/2)^2 / (4 * Σ col[i]^2))`, `D = 2^(32-b)`. -/
theorem C56_column_failure_rate (b m : Nat) (hb1 : 1 ≤ b) (col : List U32) (hm : col.length = m) :
    ((Finset.univ.filter fun t : Fin m → Fin 4294967293 =>
        ∃ e rest, randomTernaryVector m (words t) = .ok (e, rest) ∧ ¬ InWindow b (dot e col)).card : ℝ) ≤
      2 * Real.exp (-(3 * (2 ^ (31 - b)) ^ 2 / (4 * (col.map fun x => (x.toNat : ℝ) ^ 2).sum))) *
        4294967293 ^ m :=
  column_rate hb1 hm le_rfl

open scoped Classical in
/-- **C56 (index retrieval).** Build a shard from `elems` and fix the words `ts` from which the client
draws its secret. Among all noise samples, at most a fraction
`width * 2 exp (-3 (D/2)^2 / (4 m (2^b-1)^2))` makes the exchange for row `i` return a wrong row. -/
theorem C56_index_failure_rate (prof : Profile) (prg : Prg) (seed : List U8) (strs : List (List Char))
    (elems : List (List U8)) (n m T b : Nat)
    (hb1 : 1 ≤ b) (hb : b ≤ 31) (hT : T < 2 ^ 64) (hm0 : 0 < m) (hm : m ≤ elems.length)
    (hdec : strs.map b64Decode = elems.map Res.ok)
    (hlen : ∀ e ∈ elems.take m, T ≤ 8 * e.length) :
    ∃ shard, Shard.fromBase64Strings prof prg seed strs n m T b = .ok shard ∧
      ∀ ts s, randomTernaryVector n ts = .ok (s, []) → ∀ i (hi : i < m),
        ((Finset.univ.filter fun t : Fin m → Fin 4294967293 =>
            ∃ row, indexExchange prof prg shard i (ts ++ words t) = .ok row ∧
              row ≠ rowOf b (width T b) elems[i]).card : ℝ) ≤
          width T b * (2 * Real.exp (-(3 * (2 ^ (31 - b)) ^ 2 / (4 * (m * (2 ^ b - 1) ^ 2))))) *
            4294967293 ^ m := by
  obtain ⟨shard, h1, h2⟩ := C01_index_pir prof prg seed strs elems n m T b hb1 hb hT hm0 hm hdec hlen
  refine ⟨shard, h1, ?_⟩
  intro ts s hs i hi
  have h := columns_rate (m := m) hb1 ((List.range (width T b)).map fun j => column b j (elems.take m)) (by
    intro col hc
    simp only [List.mem_map] at hc
    obtain ⟨j, _, rfl⟩ := hc
    refine ⟨?_, column_lt (by omega) _⟩
    simp [column, hm])
  rw [List.length_map, List.length_range] at h
  refine le_trans (Nat.cast_le.2 (Finset.card_le_card ?_)) h
  intro t ht
  simp only [Finset.mem_filter, Finset.mem_univ, true_and] at ht ⊢
  obtain ⟨row, hex, hne⟩ := ht
  unfold indexExchange at hex
  obtain ⟨⟨qp, tape'⟩, hgen, hex⟩ := Res.bind_eq_ok.1 hex
  obtain ⟨s', t1, e, hs', he, hall⟩ := h2 _ _ _ hgen
  rw [randomTernaryVector_append hs] at hs'
  simp only [List.nil_append, Res.ok.injEq, Prod.mk.injEq] at hs'
  obtain ⟨rfl, rfl⟩ := hs'
  refine ⟨e, tape', he, ?_⟩
  simp only at hex
  obtain ⟨q, hq, hex⟩ := Res.bind_eq_ok.1 hex
  obtain ⟨bytes, hby, hex⟩ := Res.bind_eq_ok.1 hex
  obtain ⟨resp, hre, hex⟩ := Res.bind_eq_ok.1 hex
  obtain ⟨hi', bytes', resp', row', hby', hre', hp', _, _, hiff⟩ :=
    hall i (qp.generateIndexQuery prof i).1 q (Prod.ext rfl hq)
  rw [hby] at hby'
  cases hby'
  rw [hre] at hre'
  cases hre'
  rw [hex] at hp'
  cases hp'
  by_contra hno
  apply hne
  rw [hiff]
  intro j hj
  by_contra hw
  exact hno ⟨column b j (elems.take m), List.mem_map.2 ⟨j, by simpa using hj, rfl⟩, hw⟩

open scoped Classical in
/-- **C56 (keyword retrieval).** The same bound for the exchange of a stored key (the last one stored with
its hash), with the height of the published matrix in place of `m`. -/
theorem C56_kv_failure_rate (prof : Profile) (prg : Prg) (pseed : List U8) (segExp cap0 : Nat)
    (fp0 : Nat → Nat → U32) (filterSeed : List U8) (kvs : List KeyValue) (n m T b : Nat)
    (shard : KVShard) (hb1 : 1 ≤ b) (hb : b ≤ 31) (hT : T < 2 ^ 64)
    (hsh : KVShard.new prof prg pseed segExp cap0 fp0 filterSeed kvs n m T b = .ok shard)
    (hw : ∀ kv ∈ kvs, kv.value.length = width T b)
    (hload : prof = .debug ∨
      ∀ s, slotLoad filterSeed shard.db.filterParams.geom (kvs.map (·.key)) s < 64)
    (ts s : List U32) (hs : randomTernaryVector n ts = .ok (s, []))
    (i : Nat) (hi : i < kvs.length)
    (hlast : ∀ k (hk : k < kvs.length), i < k →
      mix256 kvs[k].key filterSeed ≠ mix256 kvs[i].key filterSeed) :
    ((Finset.univ.filter fun t : Fin shard.baseParams.m → Fin 4294967293 =>
        ∃ row, kvExchange prof prg shard kvs[i].key (ts ++ words t) = .ok row ∧
          row ≠ kvs[i].value.map fun v => BitVec.ofNat 32 (v.toNat % 2 ^ b)).card : ℝ) ≤
      width T b * (2 * Real.exp (-(3 * (2 ^ (31 - b)) ^ 2 /
        (4 * (shard.baseParams.m * (2 ^ b - 1) ^ 2))))) * 4294967293 ^ shard.baseParams.m := by
  have hdb : KVDatabase.new prof segExp cap0 fp0 filterSeed kvs m T b = .ok shard.db ∧
      KVParams.new prg pseed shard.db n = .ok shard.baseParams := by
    unfold KVShard.new at hsh
    obtain ⟨db, hdb, hnew⟩ := Res.bind_eq_ok.1 hsh
    obtain ⟨bp, hbp, hnew⟩ := Res.bind_eq_ok.1 hnew
    cases hnew
    exact ⟨hdb, hbp⟩
  obtain ⟨height, _, _, _, _, hcol⟩ := C37_shared_geometry prof segExp cap0 fp0 filterSeed kvs m T b hb
    shard.db hdb.1
  have hmh : ∀ col ∈ shard.db.entries, col.length = shard.baseParams.m := by
    have h := hdb.2
    unfold KVParams.new at h
    obtain ⟨rhs, _, h⟩ := Res.bind_eq_ok.1 h
    obtain ⟨hh, hhe, h⟩ := Res.bind_eq_ok.1 h
    unfold KVDatabase.getMatrixHeight at hhe
    obtain ⟨c0, hc0, hhe⟩ := Res.bind_eq_ok.1 hhe
    cases hhe
    simp only [Res.ok.injEq] at h
    rw [← h]
    intro col hc
    rw [(hcol col hc).1, (hcol c0 (List.mem_of_getElem? (rd_eq_ok.1 hc0))).1]
  have h := columns_rate (m := shard.baseParams.m) hb1 shard.db.entries
    (fun col hc => ⟨hmh col hc, (hcol col hc).2.1⟩)
  have hent : ∀ tape qp tape', generateKvQueryParams (commonParamsFrom prg shard.baseParams.publicSeed
      shard.baseParams.dim shard.baseParams.m) shard.baseParams tape = .ok (qp, tape') →
      shard.db.entries.length = width T b := by
    intro tape qp tape' hgen
    obtain ⟨_, _, _, _, _, h, _⟩ := C04_kv_pir prof prg pseed segExp cap0 fp0 filterSeed kvs n m
      T b shard hb1 hb hT hsh hw hload tape tape' qp hgen
    exact h
  by_cases hexists : ∃ tape qp tape', generateKvQueryParams (commonParamsFrom prg shard.baseParams.publicSeed
      shard.baseParams.dim shard.baseParams.m) shard.baseParams tape = .ok (qp, tape')
  · obtain ⟨tape, qp, tape', hg⟩ := hexists
    rw [hent tape qp tape' hg] at h
    refine le_trans (Nat.cast_le.2 (Finset.card_le_card ?_)) h
    intro t ht
    simp only [Finset.mem_filter, Finset.mem_univ, true_and] at ht ⊢
    obtain ⟨row, hex, hne⟩ := ht
    unfold kvExchange at hex
    obtain ⟨⟨qp, tape'⟩, hgen, hex⟩ := Res.bind_eq_ok.1 hex
    obtain ⟨s', t1, e, hs', he, _, hall⟩ := C04_kv_pir prof prg pseed segExp cap0 fp0 filterSeed kvs n m
      T b shard hb1 hb hT hsh hw hload _ tape' qp hgen
    rw [randomTernaryVector_append hs] at hs'
    simp only [List.nil_append, Res.ok.injEq, Prod.mk.injEq] at hs'
    obtain ⟨rfl, rfl⟩ := hs'
    refine ⟨e, tape', he, ?_⟩
    simp only at hex
    obtain ⟨q, hq, hex2⟩ := Res.bind_eq_ok.1 hex
    obtain ⟨bytes, hby, hex3⟩ := Res.bind_eq_ok.1 hex2
    obtain ⟨resp, hre, hex4⟩ := Res.bind_eq_ok.1 hex3
    obtain ⟨qp', q', bytes', resp', row', hq', hby', hre', hp', _, _, hiff⟩ := hall i hi hlast
    rw [hq'] at hq hex4
    simp only [Res.ok.injEq] at hq
    subst hq
    rw [hby] at hby'
    cases hby'
    rw [hre] at hre'
    cases hre'
    rw [hex4] at hp'
    cases hp'
    by_contra hno
    apply hne
    rw [hiff]
    intro col hc
    by_contra hw
    exact hno ⟨col, hc, hw⟩
  · rw [Finset.filter_false_of_mem]
    · simp only [Finset.card_empty, Nat.cast_zero]
      positivity
    · rintro t _ ⟨row, hex, _⟩
      unfold kvExchange at hex
      obtain ⟨⟨qp, tape'⟩, hgen, hex⟩ := Res.bind_eq_ok.1 hex
      exact hexists ⟨_, _, _, hgen⟩

/-- Non-vacuity of C56: a shard of three 2-byte elements with 5-bit digits; the secret words are exactly
consumed, and the noise words `0, 2^31, 4294967292` (all accepted; errors `0, 1, -1`) give the right row. -/
example :
    let strs := ["AAE=".toList, "/38=".toList, "EjQ=".toList]
    let prg : Prg := fun _ k => BitVec.ofNat 32 (1000003 * k + 17)
    let ts := [1#32, 0xffffffff#32, 2000000000#32]
    randomTernaryVector 2 ts = .ok ([0#32, 1#32], []) ∧
    (do let shard ← Shard.fromBase64Strings .debug prg [] strs 2 3 16 5
        indexExchange .debug prg shard 1 (ts ++ words ![0, 2147483648, 4294967292])) =
      .ok (rowOf 5 (width 16 5) [255#8, 127#8]) := by decide +kernel

/-- The right-hand side of `C56_index_failure_rate` as a fraction: `m` rows of `T` bits in `b`-bit digits. -/
noncomputable def Spec.failureBound (m T b : Nat) : ℝ :=
  width T b * (2 * Real.exp (-(3 * (2 ^ (31 - b)) ^ 2 / (4 * (m * (2 ^ b - 1) ^ 2)))))

theorem exp_neg_lt {x : ℝ} (k : Nat) (hx : (k : ℝ) ≤ x) {B : ℝ} (hB : 1 < B * 2.718 ^ k) (h0 : 0 < B) :
    Real.exp (-x) < B := by
  rw [Real.exp_neg, inv_lt_iff_one_lt_mul₀ (Real.exp_pos _)]
  have h1 : (2.718 : ℝ) ^ k ≤ Real.exp x := by
    have h4 : Real.exp (k : ℝ) = Real.exp 1 ^ k := by rw [← Real.exp_nat_mul]; simp
    refine le_trans ?_ (Real.exp_le_exp.2 hx)
    rw [h4]
    exact pow_le_pow_left₀ (by norm_num) (lt_trans (by norm_num) Real.exp_one_gt_d9).le _
  have h2 := mul_le_mul_of_nonneg_left h1 h0.le
  linarith

theorem failureBound_lt {m T b : Nat} (w k : Nat) (hw : width T b = w) {B : ℝ}
    (hx : (k : ℝ) ≤ 3 * (2 ^ (31 - b)) ^ 2 / (4 * (m * (2 ^ b - 1) ^ 2)))
    (hB : 2 * w < B * 2.718 ^ k) (h0 : 0 < B) (hw0 : 0 < w) : Spec.failureBound m T b < B := by
  have hwp : (0 : ℝ) < w := Nat.cast_pos.2 hw0
  have h := exp_neg_lt k hx (B := B / (2 * w)) (by
    rw [div_mul_eq_mul_div, lt_div_iff₀ (by positivity)]; linarith) (by positivity)
  rw [lt_div_iff₀ (by positivity)] at h
  unfold Spec.failureBound
  rw [hw]
  linarith

/-- **C56 (default parameters).** For the parameters the command line defaults to (`m = 2^16` rows,
elements of `2^13` bits, `b = 10`), the bound of `C56_index_failure_rate` is below `2^-58`. -/
theorem C56_default_parameters : Spec.failureBound (2 ^ 16) (2 ^ 13) 10 < 1 / 2 ^ 58 :=
  failureBound_lt 820 48 (by decide) (by norm_num) (by norm_num) (by norm_num) (by norm_num)

/-- **C56 (benchmarked parameters).** The bound at the other parameter sets of the benchmark targets in
/repo/Makefile: 1 kB elements in `2^17 .. 2^20` rows, `2^14` rows of 100 kB, `2^17` rows of 30 kB and
`2^20` rows of 256 bytes. For `2^18` rows with 10-bit digits it only guarantees 99 in 100 exchanges. -/
theorem C56_published_parameters :
    Spec.failureBound (2 ^ 17) (2 ^ 13) 10 < 1 / 2 ^ 23 ∧
    Spec.failureBound (2 ^ 18) (2 ^ 13) 10 < 1 / 90 ∧
    Spec.failureBound (2 ^ 19) (2 ^ 13) 9 < 1 / 2 ^ 127 ∧
    Spec.failureBound (2 ^ 20) (2 ^ 13) 9 < 1 / 2 ^ 58 ∧
    Spec.failureBound (2 ^ 14) 819200 10 < 1 / 2 ^ 255 ∧
    Spec.failureBound (2 ^ 17) 245760 10 < 1 / 2 ^ 19 ∧
    Spec.failureBound (2 ^ 20) (2 ^ 11) 9 < 1 / 2 ^ 60 :=
  ⟨failureBound_lt 820 24 (by decide) (by norm_num) (by norm_num) (by norm_num) (by norm_num),
   failureBound_lt 820 12 (by decide) (by norm_num) (by norm_num) (by norm_num) (by norm_num),
   failureBound_lt 911 96 (by decide) (by norm_num) (by norm_num) (by norm_num) (by norm_num),
   failureBound_lt 911 48 (by decide) (by norm_num) (by norm_num) (by norm_num) (by norm_num),
   failureBound_lt 81920 192 (by decide) (by norm_num) (by norm_num) (by norm_num) (by norm_num),
   failureBound_lt 24576 24 (by decide) (by norm_num) (by norm_num) (by norm_num) (by norm_num),
   failureBound_lt 228 48 (by decide) (by norm_num) (by norm_num) (by norm_num) (by norm_num)⟩

end Chalamet
