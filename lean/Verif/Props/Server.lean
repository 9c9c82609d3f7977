import Verif.Lemmas.Server
import Verif.Lemmas.Noise
import Verif.Lemmas.Respond
import Mathlib.Order.Interval.Finset.Nat

/-!
# Server side, matrices, parameters, sampler: C16, C20, C21, C23 – C27, C52 (index)
-/

namespace Chalamet
open Spec

/-! ## C16: row iterator -/

/-- **C16.** The row iterator of a shard built from the encodings of `elems` (all of `T` bits, `b` not
dividing `T`) lists the first `m` strings in order. -/
theorem C16_row_iterator (prof : Profile) (prg : Prg) (seed : List U8) (elems : List (List U8))
    (n m T b : Nat) (hb1 : 1 ≤ b) (hb : b ≤ 32) (hm0 : 0 < m) (hm : m ≤ elems.length)
    (hT : ∀ e ∈ elems, T = 8 * e.length) (hdvd : ¬ b ∣ T) :
    ∃ shard, Shard.fromBase64Strings prof prg seed (elems.map b64Encode) n m T b = .ok shard ∧
      shard.rowIter prof = .ok ((elems.take m).map b64Encode) := by
  refine ⟨shardOf prg seed elems n m T b, shard_ok (map_decode_encode elems) hb1 hb hm0 hm
    (fun e he => le_trans (width_mul_le (by omega)) (le_of_eq (hT e (List.mem_of_mem_take he)))), ?_⟩
  unfold Shard.rowIter
  rw [mapRes_eq_ok]
  apply List.ext_getElem (by simp [shardOf, dbOf, hm])
  intro i h1 h2
  have hi : i < m := by simpa [shardOf, dbOf] using h1
  simp only [List.getElem_map, List.getElem_range, List.getElem_take]
  unfold IndexDatabase.getDbEntry
  rw [shardOf_getDbEntry hi hm, Res.bind_ok]
  unfold base64FromU32Slice
  obtain ⟨bytes, e1, e2, e3⟩ := decode_digits (prof := prof)
    (N := leNat (elems[i]'(by omega))) (by omega) hb hdvd
  have hTi := hT (elems[i]'(by omega)) (List.getElem_mem _)
  have : bytes = elems[i]'(by omega) := by
    apply leNat_inj
    · omega
    · rw [e3, hTi]
      apply Nat.mod_eq_of_lt
      have := leNat_lt (elems[i]'(by omega))
      rwa [show (256 : Nat) = 2 ^ 8 by rfl, ← Nat.pow_mul] at this
  rw [this] at e1
  show (bytesFromU32Slice prof (rowOf b (width T b) _) b T >>= _) = _
  rw [show rowOf b (width T b) (elems[i]'(by omega)) = (List.range ((T + b - 1) / b)).map fun j =>
    BitVec.ofNat 32 (digit b (leNat (elems[i]'(by omega))) j) from rfl, e1]
  rfl

example : (do
    let s ← Shard.fromBase64Strings .debug (fun _ k => BitVec.ofNat 32 k) []
      ["AAE=".toList, "/38=".toList] 1 2 16 5
    s.rowIter .debug) = .ok ["AAE=".toList, "/38=".toList] := by decide +kernel

/-! ## C20, C21: the server -/

/-- **C20.** For every shard that was built (`b ≤ 32`, at least one column) there are the elements its
first `m` strings decode to, and `respond` answers a query of length `m` with the serialised vector of
inner products with the digit columns; any other length panics. -/
theorem C20_respond (prof : Profile) (prg : Prg) (seed : List U8) (strs : List (List Char))
    (n m T b : Nat) (shard : Shard) (hb : b ≤ 32) (hT : 0 < T)
    (h : Shard.fromBase64Strings prof prg seed strs n m T b = .ok shard) :
    ∃ elems : List (List U8), elems.length = m ∧ (strs.take m).map b64Decode = elems.map Res.ok ∧
      ∀ q : List U32,
        (q.length = m → shard.respond q =
          .ok (bincodeSerialize ((List.range (width T b)).map fun j => dot q (column b j elems)))) ∧
        (q.length ≠ m → shard.respond q = .panic) := by
  obtain ⟨hb1, hm0, elems, hl, _, hdec, _, rfl⟩ := shardInv hb h
  refine ⟨elems, hl, hdec, ?_⟩
  intro q
  have htake : elems.take m = elems := List.take_of_length_le (by omega)
  constructor
  · intro hq
    unfold Shard.respond
    rw [shard_answer hb1 (le_of_eq hl.symm) hq, htake]
    rfl
  · intro hq
    have hw : 0 < width T b := Nat.div_pos (by omega) (by omega)
    unfold Shard.respond Shard.answer IndexDatabase.getRowWidthSelf
    have e : getRowWidth (shardOf prg seed elems n m T b).db.elemSize
        (shardOf prg seed elems n m T b).db.plaintextBits = .ok (width T b) :=
      getRowWidth_ok (by show 0 < b; omega)
    rw [e]
    simp only [Res.bind_ok]
    obtain ⟨w, hw'⟩ : ∃ w, width T b = w + 1 := ⟨width T b - 1, by omega⟩
    have e2 : (shardOf prg seed elems n m T b).db.vecMult q 0 = .panic := by
      unfold IndexDatabase.vecMult
      rw [rd_of_some (a := column b 0 elems) (by simp [shardOf, dbOf, htake, hw]), Res.bind_ok,
        if_pos (by rw [column_length]; omega)]
    rw [hw', List.range_succ_eq_map, mapRes_cons, e2]
    rfl

/-- Response vectors are linear. -/
theorem answer_linear (prof : Profile) (prg : Prg) (seed : List U8) (strs : List (List Char))
    (n m T b : Nat) (shard : Shard) (hb : b ≤ 32)
    (h : Shard.fromBase64Strings prof prg seed strs n m T b = .ok shard)
    (q₁ q₂ : List U32) (h₁ : q₁.length = m) (h₂ : q₂.length = m) :
    ∃ a₁ a₂, shard.answer q₁ = .ok a₁ ∧ shard.answer q₂ = .ok a₂ ∧
      shard.answer (vadd q₁ q₂) = .ok (vadd a₁ a₂) ∧ a₁.length = width T b := by
  obtain ⟨hb1, hm0, elems, hl, _, hdec, _, rfl⟩ := shardInv hb h
  refine ⟨_, _, shard_answer hb1 (le_of_eq hl.symm) h₁, shard_answer hb1 (le_of_eq hl.symm) h₂, ?_,
    by simp⟩
  rw [shard_answer hb1 (le_of_eq hl.symm) (by simp [vadd, h₁, h₂])]
  congr 1
  apply List.ext_getElem (by simp [vadd])
  intro j hj1 hj2
  simp only [vadd, List.getElem_map, List.getElem_range, List.getElem_zipWith]
  exact dot_vadd_left (by omega)

/-- **C21.** Responses are linear: what the response to a sum of two queries deserialises to is the sum of what the two
responses deserialise to. -/
theorem C21_linear (prof : Profile) (prg : Prg) (seed : List U8) (strs : List (List Char))
    (n m T b : Nat) (shard : Shard) (hb : b ≤ 32) (hT : T < 2 ^ 64)
    (h : Shard.fromBase64Strings prof prg seed strs n m T b = .ok shard)
    (q₁ q₂ : List U32) (h₁ : q₁.length = m) (h₂ : q₂.length = m) :
    ∃ r₁ r₂ r₃ a₁ a₂, shard.respond q₁ = .ok r₁ ∧ shard.respond q₂ = .ok r₂ ∧ shard.respond (vadd q₁ q₂) = .ok r₃ ∧
      bincodeDeserialize r₁ = .ok a₁ ∧ bincodeDeserialize r₂ = .ok a₂ ∧ bincodeDeserialize r₃ = .ok (vadd a₁ a₂) ∧
      a₁.length = width T b ∧ a₂.length = width T b := by
  obtain ⟨a₁, a₂, e₁, e₂, e₃, hl⟩ := answer_linear prof prg seed strs n m T b shard hb h q₁ q₂ h₁ h₂
  have hl₂ : a₂.length = width T b := by
    obtain ⟨x, _, e, _, _, hx⟩ := answer_linear prof prg seed strs n m T b shard hb h q₂ q₁ h₂ h₁
    rw [e₂] at e
    cases e
    exact hx
  have hs : shard.db.elemSize = T := by
    obtain ⟨_, _, elems, _, _, _, _, rfl⟩ := shardInv hb h
    rfl
  obtain ⟨r₁, p₁, d₁⟩ := shard_respond_bytes (by rw [hs]; exact hT) e₁
  obtain ⟨r₂, p₂, d₂⟩ := shard_respond_bytes (by rw [hs]; exact hT) e₂
  obtain ⟨r₃, p₃, d₃⟩ := shard_respond_bytes (by rw [hs]; exact hT) e₃
  exact ⟨r₁, r₂, r₃, a₁, a₂, p₁, p₂, p₃, d₁, d₂, d₃, hl, hl₂⟩

/-- Response vector to a multiple of a unit vector. -/
theorem answer_unit (prof : Profile) (prg : Prg) (seed : List U8) (strs : List (List Char))
    (n m T b : Nat) (shard : Shard) (hb : b ≤ 32)
    (h : Shard.fromBase64Strings prof prg seed strs n m T b = .ok shard)
    (i : Nat) (hi : i < m) (c : U32) :
    ∃ e, b64Decode (strs.getD i []) = .ok e ∧
      shard.answer ((List.replicate m 0#32).set i c) =
        .ok ((rowOf b (width T b) e).map fun d => c * d) := by
  obtain ⟨hb1, hm0, elems, hl, hml, hdec, _, rfl⟩ := shardInv hb h
  have hi' : i < elems.length := by omega
  refine ⟨elems[i], ?_, ?_⟩
  · have := congrArg (fun x => x[i]?) hdec
    simp only [List.getElem?_map, List.getElem?_take, hi, if_true,
      List.getElem?_eq_getElem hi', List.getElem?_eq_getElem (show i < strs.length by omega),
      Option.map_some, Option.some.injEq] at this
    rw [getD_lt (by omega)]
    exact this
  · rw [shard_answer hb1 (le_of_eq hl.symm) (by simp), rowOf, List.map_map]
    congr 1
    apply List.map_congr_left
    intro j _
    have hz : ∀ (k : Nat) (v : List U32), dot (List.replicate k 0#32) v = 0#32 := by
      intro k
      induction k with
      | zero => intro v; rfl
      | succ k ih => intro v; cases v with
        | nil => rfl
        | cons x xs => rw [List.replicate_succ, dot, ih]; simp
    rw [dot_set (by simpa using hi) (by simp [column, hl, hi]), hz]
    simp [column, List.take_of_length_le (le_of_eq hl)]

/-- **C21 (selection).** The response to `c` at position `i` and zero elsewhere deserialises to `c` times row
`i` of the digit matrix. -/
theorem C21_unit_query (prof : Profile) (prg : Prg) (seed : List U8) (strs : List (List Char))
    (n m T b : Nat) (shard : Shard) (hb : b ≤ 32) (hT : T < 2 ^ 64)
    (h : Shard.fromBase64Strings prof prg seed strs n m T b = .ok shard)
    (i : Nat) (hi : i < m) (c : U32) :
    ∃ e bytes, b64Decode (strs.getD i []) = .ok e ∧ shard.respond ((List.replicate m 0#32).set i c) = .ok bytes ∧
      bincodeDeserialize bytes = .ok ((rowOf b (width T b) e).map fun d => c * d) := by
  obtain ⟨e, he, ha⟩ := answer_unit prof prg seed strs n m T b shard hb h i hi c
  have hs : shard.db.elemSize = T := by
    obtain ⟨_, _, elems, _, _, _, _, rfl⟩ := shardInv hb h
    rfl
  obtain ⟨r, p, d⟩ := shard_respond_bytes (by rw [hs]; exact hT) ha
  exact ⟨e, r, he, p, d⟩

/-! ## C23: transposition -/

/-- **C23.** For a rectangular matrix with at least one row and one column: transposing exchanges
coordinates, transposing twice is the identity, and extracting column `j` gives row `j` of the
transpose. -/
theorem C23_transpose (M : List (List U32)) (h w : Nat) (hh : 0 < h) (hw : 0 < w)
    (hl : M.length = h) (hrect : ∀ r ∈ M, r.length = w) :
    ∃ N, swapMatrixFmt M = .ok N ∧ N.length = w ∧ (∀ r ∈ N, r.length = h) ∧
      (∀ i < h, ∀ j < w, (N.getD j []).getD i 0#32 = (M.getD i []).getD j 0#32) ∧
      swapMatrixFmt N = .ok M ∧
      (∀ j < w, getMatrixSecondAt M j = .ok (N.getD j [])) := by
  have hN := swapMatrixFmt_rect (M := M) ⟨hl, hrect⟩ hh
  refine ⟨_, hN, by simp, ?_, ?_, ?_, ?_⟩
  · intro r hr
    obtain ⟨j, _, rfl⟩ := List.mem_map.1 hr
    simpa using hl
  · intro i hi j hj
    rw [getD_lt (l := (List.range w).map _) (by simpa using hj), List.getElem_map,
      List.getElem_range, getD_lt (l := M.map _) (by simpa [hl] using hi), List.getElem_map,
      getD_lt (show i < M.length by omega)]
  · rw [swapMatrixFmt_rect (h := w) (w := h) ⟨by simp, ?_⟩ hw]
    · congr 1
      apply List.ext_getElem (by simpa using hl.symm)
      intro i h1 h2
      rw [List.getElem_map, List.getElem_range, List.map_map]
      have hMi := hrect M[i] (List.getElem_mem h2)
      apply List.ext_getElem (by simpa using hMi.symm)
      intro j h3 h4
      simp only [List.getElem_map, List.getElem_range, Function.comp_apply]
      rw [getD_lt (by simpa using h2), List.getElem_map, getD_lt (by omega)]
    · intro r hr
      obtain ⟨j, _, rfl⟩ := List.mem_map.1 hr
      simpa using hl
  · intro j hj
    rw [getD_lt (by simpa using hj), List.getElem_map, List.getElem_range]
    unfold getMatrixSecondAt
    apply mapRes_ok_of_forall
    intro r hr
    have := hrect r hr
    rw [rd_ok (by omega), getD_lt (by omega)]

/-- **C23.** An empty matrix panics. -/
theorem C23_empty : swapMatrixFmt [] = .panic := rfl

/-- **C23.** `switch_fmt` twice restores a database with a rectangular matrix. -/
theorem C23_switch_fmt (db : IndexDatabase) (h w : Nat) (hh : 0 < h) (hw : 0 < w)
    (hl : db.entries.length = h) (hrect : ∀ r ∈ db.entries, r.length = w) :
    (db.switchFmt >>= fun db' => db'.switchFmt) = .ok db := by
  obtain ⟨N, h1, _, _, _, h2, _⟩ := C23_transpose db.entries h w hh hw hl hrect
  unfold IndexDatabase.switchFmt
  rw [h1]
  simp only [Res.bind_ok, h2]

example : swapMatrixFmt [[1#32, 2#32, 3#32], [4#32, 5#32, 6#32]] =
    .ok [[1#32, 4#32], [2#32, 5#32], [3#32, 6#32]] := by decide +kernel

/-! ## C24, C25: parameters -/

/-- **C24.** The client's matrix expanded from the published parameters is `m × n`, and the published
right-hand side is its product with the database: entry `(j, k)` is the inner product of column `k`
of that matrix with digit column `j`. -/
theorem C24_same_matrix (prof : Profile) (prg : Prg) (seed : List U8) (strs : List (List Char))
    (n m T b : Nat) (shard : Shard) (hb : b ≤ 32)
    (h : Shard.fromBase64Strings prof prg seed strs n m T b = .ok shard) :
    let A := commonParamsFrom prg shard.baseParams.publicSeed shard.baseParams.dim
      shard.baseParams.m
    A.length = m ∧ (∀ r ∈ A, r.length = n) ∧ shard.baseParams.publicSeed = seed ∧
    ∃ elems : List (List U8), (strs.take m).map b64Decode = elems.map Res.ok ∧
      shard.baseParams.rhs.length = width T b ∧
      ∀ j < width T b, ∀ k < n, (shard.baseParams.rhs.getD j []).getD k 0#32 =
        dot (A.map fun r => r.getD k 0#32) (column b j elems) := by
  obtain ⟨hb1, hm0, elems, hl, _, hdec, _, rfl⟩ := shardInv hb h
  have hA := generateLwe_rect prg seed n m
  refine ⟨hA.1, hA.2, rfl, elems, hdec, by simp [shardOf, rhsOf], ?_⟩
  intro j hj k hk
  have htake : elems.take m = elems := List.take_of_length_le (by omega)
  show (((List.range (width T b)).map _).getD j []).getD k 0#32 = _
  rw [getD_lt (l := (List.range (width T b)).map _) (by simpa using hj), List.getElem_map,
    List.getElem_range, getD_lt (l := (List.range n).map _) (by simpa using hk), List.getElem_map, List.getElem_range, htake]
  rfl

/-- **C24.** The `m × n` matrix consists of the first `m * n` words of the generator's output, in row
order, each used once. -/
theorem C24_matrix_words (prg : Prg) (seed : List U8) (n m : Nat) :
    (commonParamsFrom prg seed n m).flatten = (List.range (m * n)).map (prg seed) ∧
    ∀ j < m, ∀ k < n, ((commonParamsFrom prg seed n m).getD j []).getD k 0#32 = prg seed (j * n + k) := by
  rw [show commonParamsFrom prg seed n m =
      (List.range m).map fun j => (List.range n).map fun k => prg seed (j * n + k) from generateLwe_eq prg seed n m]
  constructor
  · induction m with
    | zero => simp
    | succ m ih =>
      rw [List.range_succ, List.map_append, List.flatten_append, ih, Nat.succ_mul, List.range_add,
        List.map_append]
      simp [Function.comp_def]
  · intro j hj k hk
    rw [getD_lt (l := (List.range m).map _) (by simpa using hj), List.getElem_map, List.getElem_range,
      getD_lt (l := (List.range n).map _) (by simpa using hk), List.getElem_map, List.getElem_range]

example : commonParamsFrom (fun s i => BitVec.ofNat 32 (s.length * 100 + i)) [7#8] 3 2 =
    [[100#32, 101#32, 102#32], [103#32, 104#32, 105#32]] := by decide +kernel

/-- **C25.** Building index query parameters, for a tape that yields the secret `s` (of the published
dimension) and the error `e`: input-size error exactly when some row of the common matrix or some
column of the public matrix has a length different from the dimension; otherwise the mask has one
entry per row of the common matrix and the right-hand side one per public column. -/
theorem C25_dimension_check (cp : List (List U32)) (params : IndexParams)
    (tape t1 t2 s e : List U32)
    (hs : randomTernaryVector params.dim tape = .ok (s, t1))
    (he : randomTernaryVector cp.length t1 = .ok (e, t2)) :
    ((∃ c ∈ cp ++ params.rhs, c.length ≠ params.dim) →
      generateIndexQueryParams cp params tape = .err .inputSize) ∧
    ((∀ c ∈ cp ++ params.rhs, c.length = params.dim) →
      ∃ qp, generateIndexQueryParams cp params tape = .ok (qp, t2) ∧
        qp.lhs.length = cp.length ∧ qp.rhs.length = params.rhs.length ∧ qp.used = false ∧
        qp.lhs = vadd (cp.map fun a => dot s a) e ∧ qp.rhs = params.rhs.map fun c => dot s c) := by
  have hsl := (randomTernaryVector_spec hs).1
  have hel := (randomTernaryVector_spec he).1
  constructor
  · rintro ⟨c, hc, hne⟩
    unfold generateIndexQueryParams
    rw [hs]
    simp only [Res.bind_ok]
    by_cases hcp : ∃ c ∈ cp, c.length ≠ s.length
    · rw [multLeft_err he hcp]; rfl
    · push Not at hcp
      rw [multLeft_spec.2 ⟨fun a ha => (hcp a ha).symm, e, he, rfl⟩]
      simp only [Res.bind_ok]
      have : c ∈ params.rhs := by
        rcases List.mem_append.1 hc with h | h
        · exact absurd (hcp c h) (by rw [hsl]; exact hne)
        · exact h
      rw [multRight_err ⟨c, this, by rw [hsl]; exact hne⟩]
      rfl
  · intro hall
    refine ⟨{ lhs := vadd (cp.map fun a => dot s a) e, rhs := params.rhs.map fun c => dot s c,
              elemSize := params.elemSize, plaintextBits := params.plaintextBits,
              extraParams := none, used := false }, ?_, ?_, ?_, ?_, rfl, rfl⟩
    · unfold generateIndexQueryParams
      rw [hs]
      simp only [Res.bind_ok]
      rw [multLeft_spec.2 ⟨fun a ha => by rw [hsl]; exact (hall a (by simp [ha])).symm, e, he, rfl⟩]
      simp only [Res.bind_ok]
      rw [multRight_ok (fun c hc => by rw [hsl]; exact (hall c (by simp [hc])).symm)]
      rfl
    · simp [vadd, hel]
    · simp
    · rfl

/-- **C25 (keyword).** The same for keyword parameters, which also carry the filter parameters. -/
theorem C25_dimension_check_kv (cp : List (List U32)) (params : KVParams)
    (tape t1 t2 s e : List U32)
    (hs : randomTernaryVector params.dim tape = .ok (s, t1))
    (he : randomTernaryVector cp.length t1 = .ok (e, t2)) :
    ((∃ c ∈ cp ++ params.rhs, c.length ≠ params.dim) →
      generateKvQueryParams cp params tape = .err .inputSize) ∧
    ((∀ c ∈ cp ++ params.rhs, c.length = params.dim) →
      ∃ qp, generateKvQueryParams cp params tape = .ok (qp, t2) ∧
        qp.lhs.length = cp.length ∧ qp.rhs.length = params.rhs.length ∧ qp.used = false ∧
        qp.extraParams = some params.filterParams ∧
        qp.lhs = vadd (cp.map fun a => dot s a) e ∧ qp.rhs = params.rhs.map fun c => dot s c) := by
  have hsl := (randomTernaryVector_spec hs).1
  have hel := (randomTernaryVector_spec he).1
  constructor
  · rintro ⟨c, hc, hne⟩
    unfold generateKvQueryParams
    rw [hs]
    simp only [Res.bind_ok]
    by_cases hcp : ∃ c ∈ cp, c.length ≠ s.length
    · rw [multLeft_err he hcp]; rfl
    · push Not at hcp
      rw [multLeft_spec.2 ⟨fun a ha => (hcp a ha).symm, e, he, rfl⟩]
      simp only [Res.bind_ok]
      have : c ∈ params.rhs := by
        rcases List.mem_append.1 hc with h | h
        · exact absurd (hcp c h) (by rw [hsl]; exact hne)
        · exact h
      rw [multRight_err ⟨c, this, by rw [hsl]; exact hne⟩]
      rfl
  · intro hall
    refine ⟨{ lhs := vadd (cp.map fun a => dot s a) e, rhs := params.rhs.map fun c => dot s c,
              elemSize := params.elemSize, plaintextBits := params.plaintextBits,
              extraParams := some params.filterParams, used := false }, ?_, ?_, ?_, ?_, ?_, rfl, rfl⟩
    · unfold generateKvQueryParams
      rw [hs]
      simp only [Res.bind_ok]
      rw [multLeft_spec.2 ⟨fun a ha => by rw [hsl]; exact (hall a (by simp [ha])).symm, e, he, rfl⟩]
      simp only [Res.bind_ok]
      rw [multRight_ok (fun c hc => by rw [hsl]; exact (hall c (by simp [hc])).symm)]
      rfl
    · simp [vadd, hel]
    · simp
    · rfl
    · rfl

/-- Both outcomes of C25 occur. -/
example :
    let p : IndexParams := ⟨2, 1, [], [[1#32, 2#32]], 8, 4⟩
    generateIndexQueryParams [[1#32, 2#32, 3#32]] p [5#32, 6#32, 7#32] = .err .inputSize ∧
    (generateIndexQueryParams [[1#32, 2#32]] p [5#32, 2000000000#32, 7#32]).isOk = true := by
  decide +kernel

/-! ## C26, C27: the ternary sampler -/

/-- **C26.** A sample skips exactly the words above the rejection bound `3I` (`I = ⌊(2^32-3)/3⌋`),
consumes the first other word `v`, and returns 0, 1 or -1 according to the third `v` lies in. -/
theorem C26_ternary_sample (tape tape' : List U32) (x : U32) :
    randomTernary tape = .ok (x, tape') ↔
      ∃ rejected v, tape = rejected ++ v :: tape' ∧
        (∀ r ∈ rejected, 4294967292 < r.toNat) ∧ v.toNat ≤ 4294967292 ∧
        x = (if v.toNat ≤ 1431655764 then 0#32 else if v.toNat ≤ 2863311528 then 1#32
             else BitVec.allOnes 32) := by
  have hI : ternaryIntervalSize = 1431655764 := rfl
  have hM : ternaryRejectionSamplingMax = 4294967292 := rfl
  have hcl : ∀ v : U32, ternaryOf v = (if v.toNat ≤ 1431655764 then 0#32
      else if v.toNat ≤ 2863311528 then 1#32 else BitVec.allOnes 32) := by
    intro v
    unfold ternaryOf
    rw [hI]
    by_cases h1 : v.toNat ≤ 1431655764
    · rw [if_neg (by omega), if_neg (by omega), if_pos h1]
    · by_cases h2 : v.toNat ≤ 2863311528
      · rw [if_pos (by omega), if_neg h1, if_pos h2]
      · rw [if_neg (by omega), if_pos (by omega), if_neg h1, if_neg h2]
  induction tape with
  | nil => simp [randomTernary]
  | cons w t ih =>
    rw [randomTernary]
    by_cases hw : w.toNat > ternaryRejectionSamplingMax
    · rw [if_pos hw]
      refine Iff.trans ih ?_
      constructor
      · rintro ⟨rej, v, h1, h2, h3, h4⟩
        refine ⟨w :: rej, v, by rw [h1]; rfl, ?_, h3, h4⟩
        intro r hr
        rcases List.mem_cons.1 hr with rfl | hr
        · rw [hM] at hw; exact hw
        · exact h2 r hr
      · rintro ⟨rej, v, h1, h2, h3, h4⟩
        cases rej with
        | nil =>
          simp only [List.nil_append, List.cons.injEq] at h1
          rw [← h1.1] at h3
          rw [hM] at hw
          omega
        | cons r rej =>
          simp only [List.cons_append, List.cons.injEq] at h1
          exact ⟨rej, v, h1.2, fun r hr => h2 r (by simp [hr]), h3, h4⟩
    · rw [if_neg hw, Res.ok.injEq, Prod.mk.injEq]
      rw [hM] at hw
      constructor
      · rintro ⟨h1, h2⟩
        exact ⟨[], w, by rw [h2]; rfl, by simp, by omega, by rw [← h1, hcl]⟩
      · rintro ⟨rej, v, h1, h2, h3, h4⟩
        cases rej with
        | nil =>
          simp only [List.nil_append, List.cons.injEq] at h1
          rw [h1.1, hcl]
          exact ⟨h4.symm, h1.2⟩
        | cons r rej =>
          simp only [List.cons_append, List.cons.injEq] at h1
          have := h2 r (by simp)
          rw [← h1.1] at this
          omega

/-- **C26.** Every coordinate of a sampled vector is 0, 1 or 2^32-1, the vector has the requested
length, and its coordinates are, in order, the classes of the accepted words among the words consumed:
no word is used for two coordinates, none is skipped unless it is above the rejection bound, and
sampling stops right after the last accepted word it needs. -/
theorem C26_ternary_vector (n : Nat) (tape tape' s : List U32)
    (h : randomTernaryVector n tape = .ok (s, tape')) :
    (s.length = n ∧ ∀ x ∈ s, x = 0#32 ∨ x = 1#32 ∨ x = 0xffffffff#32) ∧
    ∃ used, tape = used ++ tape' ∧
      s = (used.filter fun v => decide (v.toNat ≤ 4294967292)).map (fun v =>
        if v.toNat ≤ 1431655764 then 0#32 else if v.toNat ≤ 2863311528 then 1#32
        else BitVec.allOnes 32) ∧
      ∀ v, used.getLast? = some v → v.toNat ≤ 4294967292 := by
  refine ⟨randomTernaryVector_spec h, ?_⟩
  induction n generalizing tape s with
  | zero =>
    simp only [randomTernaryVector, Res.ok.injEq, Prod.mk.injEq] at h
    exact ⟨[], by simp [h.2], by simp [← h.1], by simp⟩
  | succ n ih =>
    rw [randomTernaryVector] at h
    obtain ⟨⟨x, t1⟩, hx, h⟩ := Res.bind_eq_ok.1 h
    obtain ⟨⟨row, t2⟩, hr, h⟩ := Res.bind_eq_ok.1 h
    simp only [Res.ok.injEq, Prod.mk.injEq] at h
    obtain ⟨rfl, rfl⟩ := h
    obtain ⟨rej, v, rfl, hrej, hv, rfl⟩ := (C26_ternary_sample tape t1 x).1 hx
    obtain ⟨used, rfl, rfl, hl⟩ := ih _ _ hr
    refine ⟨rej ++ v :: used, by simp, ?_, ?_⟩
    · have : rej.filter (fun v => decide (v.toNat ≤ 4294967292)) = [] := by
        rw [List.filter_eq_nil_iff]
        intro r hr
        have := hrej r hr
        simp only [decide_eq_true_eq]
        omega
      rw [List.filter_append, this, List.nil_append, List.filter_cons_of_pos (by simpa using hv)]
      rfl
    · intro w hw
      cases used with
      | nil =>
        simp only [List.getLast?_append, List.getLast?_singleton, Option.some_or, Option.some.injEq] at hw
        rw [← hw]; exact hv
      | cons u us =>
        refine hl w ?_
        rw [← hw]
        simp [List.getLast?_append, List.getLast?_cons]

example : randomTernaryVector 2 [0xffffffff#32, 3000000000#32, 0xfffffffe#32, 5#32, 9#32] =
    .ok ([0xffffffff#32, 0#32], [9#32]) := by decide +kernel

example : randomTernary [0xffffffff#32, 0xfffffffe#32, 3000000000#32, 5#32] =
    .ok (0xffffffff#32, [5#32]) := by decide +kernel

/-- Preimage counts of the final classification (helper of C27). -/
theorem ternaryOf_counts :
    ((Finset.range (2 ^ 32)).filter fun v => v ≤ ternaryRejectionSamplingMax ∧
        ternaryOf (BitVec.ofNat 32 v) = 0#32).card = 1431655765 ∧
    ((Finset.range (2 ^ 32)).filter fun v => v ≤ ternaryRejectionSamplingMax ∧
        ternaryOf (BitVec.ofNat 32 v) = 1#32).card = 1431655764 ∧
    ((Finset.range (2 ^ 32)).filter fun v => v ≤ ternaryRejectionSamplingMax ∧
        ternaryOf (BitVec.ofNat 32 v) = BitVec.allOnes 32).card = 1431655764 ∧
    ((Finset.range (2 ^ 32)).filter fun v => ternaryRejectionSamplingMax < v).card = 3 := by
  have hI : ternaryIntervalSize = 1431655764 := rfl
  have hM : ternaryRejectionSamplingMax = 4294967292 := rfl
  have hn : ∀ v, v < 2 ^ 32 → (BitVec.ofNat 32 v).toNat = v := by
    intro v hv; rw [BitVec.toNat_ofNat]; exact Nat.mod_eq_of_lt hv
  have h01 : (1#32 : U32) ≠ 0#32 := by decide
  have h0m : (BitVec.allOnes 32 : U32) ≠ 0#32 := by decide
  have h1m : (BitVec.allOnes 32 : U32) ≠ 1#32 := by decide
  refine ⟨?_, ?_, ?_, ?_⟩
  · rw [show ((Finset.range (2 ^ 32)).filter fun v => v ≤ ternaryRejectionSamplingMax ∧
        ternaryOf (BitVec.ofNat 32 v) = 0#32) = Finset.range 1431655765 from ?_, Finset.card_range]
    ext v
    rw [Finset.mem_filter, Finset.mem_range, Finset.mem_range, hM]
    constructor
    · rintro ⟨h1, h2, h3⟩
      unfold ternaryOf at h3
      rw [hn v h1, hI] at h3
      split at h3
      · exact absurd h3 h01
      · split at h3
        · exact absurd h3 h0m
        · omega
    · intro h
      refine ⟨by omega, by omega, ?_⟩
      unfold ternaryOf
      rw [hn v (by omega), hI, if_neg (by omega), if_neg (by omega)]
  · rw [show ((Finset.range (2 ^ 32)).filter fun v => v ≤ ternaryRejectionSamplingMax ∧
        ternaryOf (BitVec.ofNat 32 v) = 1#32) = Finset.Ico 1431655765 2863311529 from ?_,
      Nat.card_Ico]
    ext v
    rw [Finset.mem_filter, Finset.mem_range, Finset.mem_Ico, hM]
    constructor
    · rintro ⟨h1, h2, h3⟩
      unfold ternaryOf at h3
      rw [hn v h1, hI] at h3
      split at h3
      · omega
      · split at h3
        · exact absurd h3 h1m
        · exact absurd h3.symm h01
    · intro h
      refine ⟨by omega, by omega, ?_⟩
      unfold ternaryOf
      rw [hn v (by omega), hI, if_pos (by omega)]
  · rw [show ((Finset.range (2 ^ 32)).filter fun v => v ≤ ternaryRejectionSamplingMax ∧
        ternaryOf (BitVec.ofNat 32 v) = BitVec.allOnes 32) =
          Finset.Ico 2863311529 4294967293 from ?_, Nat.card_Ico]
    ext v
    rw [Finset.mem_filter, Finset.mem_range, Finset.mem_Ico, hM]
    constructor
    · rintro ⟨h1, h2, h3⟩
      unfold ternaryOf at h3
      rw [hn v h1, hI] at h3
      split at h3
      · exact absurd h3.symm h1m
      · split at h3
        · omega
        · exact absurd h3.symm h0m
    · intro h
      refine ⟨by omega, by omega, ?_⟩
      unfold ternaryOf
      rw [hn v (by omega), hI, if_neg (by omega), if_pos (by omega)]
  · rw [show ((Finset.range (2 ^ 32)).filter fun v => ternaryRejectionSamplingMax < v) =
      Finset.Ico 4294967293 4294967296 from ?_, Nat.card_Ico]
    ext v
    rw [Finset.mem_filter, Finset.mem_range, Finset.mem_Ico, hM]
    omega

/-- **C27.** Exact distribution of one call of the sampler on one random word, over all `2^32` words: 0
comes from one word more than 1 and -1 do; exactly three words are rejected (the sampler asks for another
word). -/
theorem C27_preimage_counts :
    let words := Finset.range (2 ^ 32)
    let yields (x : U32) (v : Nat) : Prop := randomTernary [BitVec.ofNat 32 v] = .ok (x, [])
    (words.filter (yields 0#32)).card = 1431655765 ∧
    (words.filter (yields 1#32)).card = 1431655764 ∧
    (words.filter (yields 0xffffffff#32)).card = 1431655764 ∧
    (words.filter fun v => randomTernary [BitVec.ofNat 32 v] = .diverge).card = 3 := by
  intro words yields
  have hn : ∀ v, v < 2 ^ 32 → (BitVec.ofNat 32 v).toNat = v := by
    intro v hv; rw [BitVec.toNat_ofNat]; exact Nat.mod_eq_of_lt hv
  have hy : ∀ x, words.filter (yields x) =
      words.filter fun v => v ≤ ternaryRejectionSamplingMax ∧ ternaryOf (BitVec.ofNat 32 v) = x := by
    intro x
    apply Finset.filter_congr
    intro v hv
    show randomTernary [BitVec.ofNat 32 v] = _ ↔ _
    rw [randomTernary, hn v (Finset.mem_range.1 hv)]
    split
    · rename_i h
      constructor
      · intro h'; cases h'
      · rintro ⟨h', _⟩; omega
    · rename_i h
      constructor
      · intro h'; cases h'; exact ⟨by omega, rfl⟩
      · rintro ⟨_, rfl⟩; rfl
  have hd : (words.filter fun v => randomTernary [BitVec.ofNat 32 v] = .diverge) =
      words.filter fun v => ternaryRejectionSamplingMax < v := by
    apply Finset.filter_congr
    intro v hv
    rw [randomTernary, hn v (Finset.mem_range.1 hv)]
    split
    · rename_i h
      exact ⟨fun _ => h, fun _ => rfl⟩
    · rename_i h
      constructor
      · intro h'; cases h'
      · intro h'; exact absurd h' h
  obtain ⟨h0, h1, h2, h3⟩ := ternaryOf_counts
  rw [hy, hy, hy, hd]
  exact ⟨h0, h1, h2, h3⟩

/-! ## C52 (index): bytes and base64 -/

/-- **C52 (index).** When the noise is in the window for every column and `b` does not divide
`T = 8 * bytes`, the parsed bytes are the stored element and the parsed base64 its encoding. -/
theorem C52_index_bytes (prof : Profile) (prg : Prg) (seed : List U8) (strs : List (List Char))
    (elems : List (List U8)) (n m T b : Nat)
    (hb1 : 1 ≤ b) (hb : b ≤ 31) (hT : T < 2 ^ 64) (hm0 : 0 < m) (hm : m ≤ elems.length)
    (hdec : strs.map b64Decode = elems.map Res.ok)
    (hlen : ∀ e ∈ elems.take m, T = 8 * e.length) (hdvd : ¬ b ∣ T) :
    ∃ shard, Shard.fromBase64Strings prof prg seed strs n m T b = .ok shard ∧
      ∀ tape qp tape',
        generateIndexQueryParams
          (commonParamsFrom prg shard.baseParams.publicSeed shard.baseParams.dim
            shard.baseParams.m) shard.baseParams tape = .ok (qp, tape') →
        ∃ s t1 e, randomTernaryVector n tape = .ok (s, t1) ∧
          randomTernaryVector m t1 = .ok (e, tape') ∧
          ((∀ j < width T b, InWindow b (dot e (column b j (elems.take m)))) →
            ∀ i qp' q, qp.generateIndexQuery prof i = (qp', .ok q) →
              ∃ hi : i < m, ∃ bytes resp, shard.respond q = .ok bytes ∧ bincodeDeserialize bytes = .ok resp ∧
                qp'.parseIndexBytes prof resp = .ok elems[i] ∧
                qp'.parseIndexBase64 prof resp = .ok (b64Encode elems[i])) := by
  refine ⟨shardOf prg seed elems n m T b, shard_ok hdec hb1 (by omega) hm0 hm
    (fun e he => le_trans (width_mul_le (by omega)) (le_of_eq (hlen e he))), ?_⟩
  intro tape qp tape' hgen
  obtain ⟨s, t1, e, hs, he, hall⟩ := index_exchange (prof := prof) hb1 hb hm hgen
  obtain ⟨_, _, _, _, _, hqp⟩ := genParams_spec (rhs := (shardOf prg seed elems n m T b).baseParams.rhs)
    (n := n) rfl rfl hgen
  refine ⟨s, t1, e, hs, he, ?_⟩
  intro hwin i qp' q hq
  obtain ⟨hi, resp, hans, hparse⟩ := hall i qp' q hq
  obtain ⟨rbytes, hresp, hdes⟩ := shard_respond_bytes (s := shardOf prg seed elems n m T b) hT hans
  refine ⟨hi, rbytes, resp, hresp, hdes, ?_⟩
  have hrow : qp'.parseIndexRow prof resp = .ok ((List.range ((T + b - 1) / b)).map fun j =>
      BitVec.ofNat 32 (digit b (leNat elems[i]) j)) := by
    rw [hparse]
    congr 1
    apply List.map_congr_left
    intro j hj
    rw [List.mem_range] at hj
    rw [ofNat_digit_mod (by omega), carry_window hb1 hb]
    exact hwin j hj
  have hqp' : qp'.plaintextBits = b ∧ qp'.elemSize = T := by
    have h := congrArg Prod.fst hq
    have hu : qp.used = false := by rw [hqp]
    simp only [QueryParams.generateIndexQuery, hu, Bool.false_eq_true, if_false] at h
    rw [← h, hqp]
    exact ⟨rfl, rfl⟩
  obtain ⟨bytes, e1, e2, e3⟩ := decode_digits (prof := prof) (N := leNat elems[i]) (T := T) (b := b)
    (by omega) (by omega) hdvd
  have hTi := hlen elems[i] (by rw [List.mem_take_iff_getElem]; exact ⟨i, by omega, rfl⟩)
  have hbytes : bytes = elems[i] := by
    apply leNat_inj
    · omega
    · rw [e3, hTi]
      apply Nat.mod_eq_of_lt
      have := leNat_lt elems[i]
      rwa [show (256 : Nat) = 2 ^ 8 by rfl, ← Nat.pow_mul] at this
  rw [hbytes] at e1
  constructor
  · unfold QueryParams.parseIndexBytes
    rw [hrow, Res.bind_ok, hqp'.1, hqp'.2, e1]
  · unfold QueryParams.parseIndexBase64 base64FromU32Slice
    rw [hrow, Res.bind_ok, hqp'.1, hqp'.2, e1]
    rfl

end Chalamet
