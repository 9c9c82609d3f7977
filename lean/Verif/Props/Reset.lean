import Verif.Model.Bench
import Verif.Props.Query
import Verif.Props.IndexPir
import Verif.Props.Server

/-!
# Writing the public flag `used`: C87
-/

namespace Chalamet
open Spec

/-- Value of the flag after a sequence of operations: every call sets it. -/
def flagAfter {K : Type} (start : Bool) : List (ClientOp K) → Bool
  | [] => start
  | .ask _ :: ops => flagAfter true ops
  | .setUsed b :: ops => flagAfter b ops

theorem indexQuery_setUsed (prof : Profile) (qp : QueryParams Unit) (b : Bool) (i : Nat) :
    (qp.setUsed b).generateIndexQuery prof i =
      (qp.setUsed true, if b then .err .queryParamsReused else ((qp.setUsed false).generateIndexQuery prof i).2) := by
  cases b <;> rfl

theorem kvQuery_setUsed (prof : Profile) (qp : QueryParams FilterParams) (b : Bool) (k : Key) :
    (qp.setUsed b).generateKvQuery prof k =
      (qp.setUsed true, if b then .err .queryParamsReused else ((qp.setUsed false).generateKvQuery prof k).2) := by
  cases b <;> rfl

/-- The outcomes a history should have, by the flag alone. -/
def expectedOutcomes {K : Type} (fresh : K → Res (List U32)) : Bool → List (ClientOp K) → List (K × Res (List U32))
  | _, [] => []
  | used, .ask k :: ops => (k, if used then .err .queryParamsReused else fresh k) :: expectedOutcomes fresh true ops
  | _, .setUsed b :: ops => expectedOutcomes fresh b ops

theorem runOps_spec {EP K : Type} {gen : QueryParams EP → K → QueryParams EP × Res (List U32)} {qp : QueryParams EP}
    {fresh : K → Res (List U32)}
    (hgen : ∀ b k, gen (qp.setUsed b) k = (qp.setUsed true, if b then .err .queryParamsReused else fresh k))
    (ops : List (ClientOp K)) (b : Bool) :
    runOps gen (qp.setUsed b) ops = (expectedOutcomes fresh b ops, qp.setUsed (flagAfter b ops)) := by
  induction ops generalizing b with
  | nil => rfl
  | cons op ops ih =>
    cases op with
    | ask k => simp only [runOps, hgen, ih, expectedOutcomes, flagAfter]
    | setUsed b' =>
      have : (qp.setUsed b).setUsed b' = qp.setUsed b' := rfl
      simp only [runOps, this, ih, expectedOutcomes, flagAfter]

theorem setUsed_self {EP : Type} (qp : QueryParams EP) : qp.setUsed qp.used = qp := rfl

theorem expected_mem {K : Type} {fresh : K → Res (List U32)} {b : Bool} {ops : List (ClientOp K)} {k : K}
    {q : List U32} (h : (k, Res.ok q) ∈ expectedOutcomes fresh b ops) : fresh k = .ok q := by
  induction ops generalizing b with
  | nil => cases h
  | cons op ops ih =>
    cases op with
    | ask k' =>
      rcases List.mem_cons.1 h with h | h
      · cases b
        · simp only [Bool.false_eq_true, if_false, Prod.mk.injEq] at h
          rw [h.1, ← h.2]
        · simp only [if_true, Prod.mk.injEq] at h
          cases h.2
      · exact ih h
    | setUsed b' => exact ih h

/-- **C87 (index).** Take any object and any sequence of `generate_query` calls and writes to its public flag `used`.
Every call returns the reuse error when the flag was last set (by a previous call or by a write), and otherwise
what a fresh copy of the object would return; nothing but the flag ever changes. -/
theorem C87_flag_index (prof : Profile) (qp : QueryParams Unit) (ops : List (ClientOp Nat)) :
    runOps (QueryParams.generateIndexQuery prof) qp ops =
      (expectedOutcomes (fun i => ({ qp with used := false }.generateIndexQuery prof i).2) qp.used ops,
        { qp with used := flagAfter qp.used ops }) :=
  runOps_spec (indexQuery_setUsed prof qp) ops qp.used

/-- **C87 (keyword).** -/
theorem C87_flag_kv (prof : Profile) (qp : QueryParams FilterParams) (ops : List (ClientOp Key)) :
    runOps (QueryParams.generateKvQuery prof) qp ops =
      (expectedOutcomes (fun k => ({ qp with used := false }.generateKvQuery prof k).2) qp.used ops,
        { qp with used := flagAfter qp.used ops }) :=
  runOps_spec (kvQuery_setUsed prof qp) ops qp.used

/-- **C87 (leak).** In any such history, two queries that were produced differ by `D` at the first index and `-D`
at the second: they are equal for equal indices, and otherwise show both. -/
theorem C87_reset_reveals (prof : Profile) (qp : QueryParams Unit) (hb1 : 1 ≤ qp.plaintextBits)
    (hb : qp.plaintextBits ≤ 31) (ops : List (ClientOp Nat)) (i j : Nat) (q₁ q₂ : List U32)
    (h₁ : (i, .ok q₁) ∈ (runOps (QueryParams.generateIndexQuery prof) qp ops).1)
    (h₂ : (j, .ok q₂) ∈ (runOps (QueryParams.generateIndexQuery prof) qp ops).1) :
    (i = j → q₁ = q₂) ∧ (∀ k < qp.lhs.length, q₁.getD k 0#32 - q₂.getD k 0#32 =
      BitVec.ofNat 32 (2 ^ (32 - qp.plaintextBits)) *
        ((if k = i then 1#32 else 0#32) - (if k = j then 1#32 else 0#32))) ∧
    (i ≠ j → ∀ k < qp.lhs.length, q₁.getD k 0#32 ≠ q₂.getD k 0#32 ↔ k = i ∨ k = j) := by
  rw [C87_flag_index] at h₁ h₂
  have e₁ := expected_mem h₁
  have e₂ := expected_mem h₂
  refine ⟨?_, C09_mask_reuse_index prof { qp with used := false } i j hb1 hb rfl q₁ q₂ e₁ e₂⟩
  rintro rfl
  rw [e₁] at e₂
  exact Res.ok.inj e₂

/-- **C87 (answers).** Resetting the flag does not spoil retrieval: in any such history of freshly generated
parameters, the answer to every query that was produced is parsed, by the object as it is at the end, into the
queried row exactly when the noise of every column is in the window. The noise is the same for all of them. -/
theorem C87_reset_retrieval (prof : Profile) (prg : Prg) (seed : List U8) (strs : List (List Char))
    (elems : List (List U8)) (n m T b : Nat)
    (hb1 : 1 ≤ b) (hb : b ≤ 31) (hT : T < 2 ^ 64) (hm0 : 0 < m) (hm : m ≤ elems.length)
    (hdec : strs.map b64Decode = elems.map Res.ok)
    (hlen : ∀ e ∈ elems.take m, T ≤ 8 * e.length) :
    ∃ shard, Shard.fromBase64Strings prof prg seed strs n m T b = .ok shard ∧
      ∀ tape qp tape',
        generateIndexQueryParams
          (commonParamsFrom prg shard.baseParams.publicSeed shard.baseParams.dim
            shard.baseParams.m) shard.baseParams tape = .ok (qp, tape') →
        ∃ s t1 e, randomTernaryVector n tape = .ok (s, t1) ∧
          randomTernaryVector m t1 = .ok (e, tape') ∧
          ∀ ops i q, (i, .ok q) ∈ (runOps (QueryParams.generateIndexQuery prof) qp ops).1 →
            ∃ hi : i < m, ∃ bytes resp row,
              shard.respond q = .ok bytes ∧ bincodeDeserialize bytes = .ok resp ∧
              (runOps (QueryParams.generateIndexQuery prof) qp ops).2.parseIndexRow prof resp = .ok row ∧
              (row = rowOf b (width T b) elems[i] ↔
                ∀ j < width T b, InWindow b (dot e (column b j (elems.take m)))) := by
  obtain ⟨shard, hs, hall⟩ := C01_index_pir prof prg seed strs elems n m T b hb1 hb hT hm0 hm hdec hlen
  refine ⟨shard, hs, ?_⟩
  intro tape qp tape' hgen
  obtain ⟨s, t1, e, h1, h2, h3⟩ := hall tape qp tape' hgen
  refine ⟨s, t1, e, h1, h2, ?_⟩
  intro ops i q hmem
  have hused : qp.used = false := by
    unfold generateIndexQueryParams at hgen
    obtain ⟨⟨_, _⟩, _, hgen⟩ := Res.bind_eq_ok.1 hgen
    obtain ⟨⟨_, _⟩, _, hgen⟩ := Res.bind_eq_ok.1 hgen
    obtain ⟨_, _, hgen⟩ := Res.bind_eq_ok.1 hgen
    cases hgen
    rfl
  rw [C87_flag_index] at hmem ⊢
  have hq := expected_mem hmem
  have hqp : ({ qp with used := false } : QueryParams Unit) = qp := by cases qp; simp_all
  rw [hqp] at hq
  obtain ⟨hi, bytes, resp, row, a1, a2, a3, _, _, a4⟩ := h3 i { qp with used := true } q
    (by rw [indexQuery_fresh hused] at hq ⊢; exact Prod.ext rfl hq)
  exact ⟨hi, bytes, resp, row, a1, a2, a3, a4⟩

/-- **C87 (benchmark loop).** After one successful query, any number of iterations of the benchmark loop (reset
the flag, query the same index again, unwrap) succeed, and every one of them produces the very same query. -/
theorem C87_bench_loop (prof : Profile) (qp qp' : QueryParams Unit) (i : Nat) (q : List U32)
    (h : qp.generateIndexQuery prof i = (qp', .ok q)) (n : Nat) :
    ∃ qp'', benchPrepare (QueryParams.generateIndexQuery prof) i n qp' = .ok qp'' ∧
      { qp'' with used := false }.generateIndexQuery prof i = (qp', .ok q) := by
  have hu : qp.used = false := by
    by_contra hu
    rw [Bool.not_eq_false] at hu
    simp [QueryParams.generateIndexQuery, hu] at h
  have hqp' : qp' = qp.setUsed true := by
    rw [indexQuery_fresh hu] at h
    exact (Prod.mk.inj h).1.symm
  have hbase : ∀ b, ((qp.setUsed b).setUsed false).generateIndexQuery prof i = (qp', .ok q) := by
    intro b
    rw [← h]
    congr 1
    cases qp
    simp_all [QueryParams.setUsed]
  have key : ∀ n b, benchPrepare (QueryParams.generateIndexQuery prof) i n (qp.setUsed b) =
      .ok (qp.setUsed (if n = 0 then b else true)) := by
    intro n
    induction n with
    | zero => intro b; rfl
    | succ n ih =>
      intro b
      rw [benchPrepare]
      simp only [hbase, Res.unwrap_ok, Res.bind_ok]
      rw [hqp', ih true]
      simp
  refine ⟨qp', ?_, ?_⟩
  · rw [hqp', key n true]
    simp
  · have := hbase true
    rw [← hqp'] at this
    exact this

/-- **C87 (benchmark loop, failures).** If a fresh copy of the object does not produce a query for `k` (an error or a panic), the
loop panics in its first iteration; for index and keyword queries alike. -/
theorem C87_bench_loop_fails {EP K : Type} (gen : QueryParams EP → K → QueryParams EP × Res (List U32)) (k : K)
    (qp : QueryParams EP) (n : Nat)
    (h : (gen (qp.setUsed false) k).2 = .panic ∨ ∃ e, (gen (qp.setUsed false) k).2 = .err e) :
    benchPrepare gen k 0 qp = .ok qp ∧ benchPrepare gen k (n + 1) qp = .panic := by
  refine ⟨rfl, ?_⟩
  rw [benchPrepare]
  rcases h with h | ⟨e, h⟩ <;> simp only [h] <;> rfl

/-- Non-vacuity: parameters whose mask makes the addition overflow. -/
example : benchPrepare (QueryParams.generateIndexQuery .release) 0 5
    (⟨[4294967295#32], [0#32], 8, 8, none, true⟩ : QueryParams Unit) = .panic :=
  (C87_bench_loop_fails _ 0 ⟨[4294967295#32], [0#32], 8, 8, none, true⟩ 4
    (.inr ⟨.overflownAdd, by decide⟩)).2

/-- **C87 (benchmark data).** The elements the benchmarks draw (`m` of `⌈T/8⌉` random bytes) always build an index
shard, whatever the random bytes are. -/
theorem C87_bench_data (prof : Profile) (prg : Prg) (seed : List U8) (ent : Nat → U8) (n m T b : Nat)
    (hm : 0 < m) (hb1 : 1 ≤ b) (hb : b ≤ 32) :
    ∃ shard, Shard.fromBase64Strings prof prg seed (benchDbEles ent m ((T + 7) / 8)) n m T b = .ok shard := by
  set elems : List (List U8) := (List.range m).map fun i => (List.range ((T + 7) / 8)).map fun k =>
    ent (i * ((T + 7) / 8) + k) with helems
  have hstr : benchDbEles ent m ((T + 7) / 8) = elems.map b64Encode := by
    unfold benchDbEles
    rw [helems, List.map_map]
    rfl
  rw [hstr]
  refine ⟨_, shard_ok (map_decode_encode elems) hb1 hb hm (by simp [helems]) ?_⟩
  intro e he
  have he := List.mem_of_mem_take he
  rw [helems, List.mem_map] at he
  obtain ⟨i, _, rfl⟩ := he
  rw [List.length_map, List.length_range]
  have h2 : (width T b - 1) * b ≤ T := width_mul_le (by omega)
  omega

theorem flatten_blocks (ent : Nat → U8) (len num : Nat) :
    ((List.range num).map fun i => (List.range len).map fun k => ent (i * len + k)).flatten =
      (List.range (num * len)).map ent := by
  induction num with
  | zero => simp
  | succ n ih =>
    rw [List.range_succ, List.map_append, List.flatten_append, ih, Nat.succ_mul, List.range_add, List.map_append,
      List.map_map]
    simp [Function.comp_def]

/-- **C87 (benchmark data, which bytes).** The index benchmark's elements are base64 encodings of `num` blocks of `len` bytes
that, put together, are the first `num · len` bytes of the random source: no byte is used twice and none is skipped. -/
theorem C87_bench_stream (ent : Nat → U8) (num len : Nat) :
    ∃ blocks : List (List U8), benchDbEles ent num len = blocks.map b64Encode ∧ blocks.length = num ∧
      (∀ e ∈ blocks, e.length = len) ∧ blocks.flatten = (List.range (num * len)).map ent := by
  refine ⟨(List.range num).map fun i => (List.range len).map fun k => ent (i * len + k), ?_, by simp, ?_, flatten_blocks _ _ _⟩
  · unfold benchDbEles; rw [List.map_map]; rfl
  · intro e he
    obtain ⟨i, _, rfl⟩ := List.mem_map.1 he
    simp

/-- **C87 (benchmark data, which bytes, keywords).** The keyword benchmark's pairs are base64 encodings of keys of 32 bytes and
values of `len` bytes that, put together pair by pair with the key first, are the first `num · (32 + len)` bytes of the source. -/
theorem C87_bench_kv_stream (ent : Nat → U8) (num len : Nat) :
    ∃ pairs : List (List U8 × List U8), benchKvElems ent num len = pairs.map (fun p => (b64Encode p.1, b64Encode p.2)) ∧
      pairs.length = num ∧ (∀ p ∈ pairs, p.1.length = 32 ∧ p.2.length = len) ∧
      (pairs.map fun p => p.1 ++ p.2).flatten = (List.range (num * (32 + len))).map ent := by
  refine ⟨(List.range num).map fun i => ((List.range 32).map fun k => ent (i * (32 + len) + k),
    (List.range len).map fun k => ent (i * (32 + len) + 32 + k)), ?_, by simp, ?_, ?_⟩
  · unfold benchKvElems; rw [List.map_map]; rfl
  · intro e he
    obtain ⟨i, _, rfl⟩ := List.mem_map.1 he
    simp
  · rw [← flatten_blocks, List.map_map]
    congr 1
    apply List.map_congr_left
    intro i _
    rw [Function.comp_apply, List.range_add, List.map_append, List.map_map]
    congr 1
    apply List.map_congr_left
    intro k _
    rw [Function.comp_apply, Nat.add_assoc]

/-- Non-vacuity of C87: ask, ask again (refused), reset, ask for another index. -/
example :
    let qp : QueryParams Unit := ⟨[5#32, 7#32], [], 8, 8, none, false⟩
    (runOps (QueryParams.generateIndexQuery .debug) qp [.ask 0, .ask 1, .setUsed false, .ask 1]).1 =
      [(0, .ok [0x1000005#32, 7#32]), (1, .err .queryParamsReused), (1, .ok [5#32, 0x1000007#32])] := by
  decide +kernel

end Chalamet
