import Verif.Lemmas.Overload
import Verif.Props.Kv
import Verif.Props.Sizes
import Verif.Props.Build
import Mathlib.Data.Fintype.CardEmbedding

/-! # C117: for random keys, overloaded slots and colliding hashes are negligible

The release-build theorems about filters and key-value databases (C04, C40, ...) assume that no slot is touched by
64 hashes or more; C80, C82 and C100 show the lookups lost, or the construction that never returns, when it is. Here the
tuples of words for which that happens are counted. -/

namespace Chalamet
open Finset Spec

theorem hits_num {N k L : Nat} (hk : 0 < k) (hL0 : 0 < L) (hL : L ≤ 2 ^ 18) (hN : N ≤ 2 ^ 24) (hlen : N ≤ (k + 2) * L) :
    100 * (N * slotHits k L) ≤ 513 * 2 ^ 64 := by
  unfold slotHits
  have hq : k * L * (2 ^ 64 / (k * L)) ≤ 2 ^ 64 := Nat.mul_div_le _ _
  generalize 2 ^ 64 / (k * L) = q at hq ⊢
  have h1 : min 3 k * (k + 2) ≤ 5 * k := by
    rcases Nat.lt_or_ge k 3 with h | h
    · rw [min_eq_right (by omega)]
      have : k * (k + 2) ≤ k * 5 := Nat.mul_le_mul_left _ (by omega)
      linarith
    · rw [min_eq_left h]; omega
  have h3 : min 3 k ≤ 3 := Nat.min_le_left _ _
  generalize min 3 k = μ at h1 h3 ⊢
  have e1 : N * (μ * (q + 2) + L * 2 ^ 19 + L * 2) = N * (μ * q) + N * (μ * 2 + L * 2 ^ 19 + L * 2) := by ring
  have e2 : N * (μ * q) ≤ 5 * 2 ^ 64 := by
    calc N * (μ * q) ≤ (k + 2) * L * (μ * q) := Nat.mul_le_mul_right _ hlen
      _ = μ * (k + 2) * (L * q) := by ring
      _ ≤ 5 * k * (L * q) := Nat.mul_le_mul_right _ h1
      _ = 5 * (k * L * q) := by ring
      _ ≤ 5 * 2 ^ 64 := Nat.mul_le_mul_left _ hq
  have e3 : N * (μ * 2 + L * 2 ^ 19 + L * 2) ≤ 2 ^ 24 * (6 + 2 ^ 18 * 2 ^ 19 + 2 ^ 18 * 2) :=
    Nat.mul_le_mul hN (by omega)
  rw [e1]
  have e4 : 100 * (2 ^ 24 * (6 + 2 ^ 18 * 2 ^ 19 + 2 ^ 18 * 2)) ≤ 13 * 2 ^ 64 := by decide +kernel
  omega

theorem overload_const : 2 ^ 25 * 513 ^ 64 * (1000 * 2 ^ 100) ≤ Nat.factorial 64 * 100 ^ 64 := by decide +kernel

theorem overload_gen {len C F H N c d M K L : Nat} (h1 : len ≤ L) (h2 : C * F ≤ N) (h3 : c * (N * H) ≤ d * M)
    (h4 : L * d * K ≤ F * c) (h5 : 0 < F * c) : len * (C * H) * K ≤ M := by
  refine Nat.le_of_mul_le_mul_left ?_ h5
  calc F * c * (len * (C * H) * K) = C * F * (c * len * H * K) := by ring
    _ ≤ N * (c * len * H * K) := Nat.mul_le_mul_right _ h2
    _ = c * (N * H) * (len * K) := by ring
    _ ≤ d * M * (len * K) := Nat.mul_le_mul_right _ h3
    _ = len * (d * K * M) := by ring
    _ ≤ L * (d * K * M) := Nat.mul_le_mul_right _ h1
    _ = L * d * K * M := by ring
    _ ≤ F * c * M := Nat.mul_le_mul_right _ h4

theorem overload_shape {a len C H Z b : Nat} : a * (len * (C * H * Z)) * b = len * (C * H) * (a * b) * Z := by ring

theorem overload_num {N H len : Nat} (hlen : len ≤ 2 ^ 25) (hH : 100 * (N * H) ≤ 513 * 2 ^ 64) :
    1000 * (len * (N.choose 64 * H ^ 64 * (2 ^ 64) ^ (N - 64))) * 2 ^ 100 ≤ (2 ^ 64) ^ N := by
  rcases Nat.lt_or_ge N 64 with h | h
  · rw [Nat.choose_eq_zero_of_lt h, Nat.zero_mul, Nat.zero_mul, Nat.mul_zero, Nat.mul_zero, Nat.zero_mul]
    exact Nat.zero_le _
  · have hch : N.choose 64 * Nat.factorial 64 ≤ N ^ 64 := by
      have := Nat.descFactorial_le_pow N 64
      rw [Nat.descFactorial_eq_factorial_mul_choose, Nat.mul_comm] at this
      exact this
    have hpw : (2 ^ 64) ^ N = (2 ^ 64) ^ 64 * (2 ^ 64) ^ (N - 64) := by
      rw [← Nat.pow_add, Nat.add_sub_cancel' h]
    have hp := Nat.pow_le_pow_left hH 64
    rw [Nat.mul_pow, Nat.mul_pow, Nat.mul_pow] at hp
    rw [hpw, overload_shape]
    exact Nat.mul_le_mul_right _ (overload_gen hlen hch hp overload_const
      (Nat.mul_pos (Nat.factorial_pos _) (Nat.pow_pos (by omega))))

/-- Tuples of words whose images under a permutation overload a slot, once for each of `r` permutations. -/
theorem card_overload_many {lay : Layout} {N segExp cap0 : Nat} (hlay : bfLayout N segExp cap0 = .ok lay)
    (φ : Nat → U64 → U64) (hφ : ∀ t, Function.Injective (φ t)) (r : Nat) (bad : Finset (Fin N → Fin (2 ^ 64)))
    (hbad : ∀ x ∈ bad, ∃ t < r, ¬ ∀ s, cnt lay.geom ((wordList x).map (φ t)) s < 64) :
    bad.card ≤ r * (lay.arrayLen * (N.choose 64 *
      slotHits lay.segmentCount lay.geom.segmentLength.toNat ^ 64 * (2 ^ 64) ^ (N - 64))) := by
  classical
  obtain ⟨s, hs, hg⟩ := bfLayout_wf hlay
  have hsub : bad ⊆ (range r).biUnion fun t =>
      univ.filter fun x : Fin N → Fin (2 ^ 64) => ¬ ∀ s, cnt lay.geom ((wordList x).map (φ t)) s < 64 := by
    intro x hx
    obtain ⟨t, ht, h⟩ := hbad x hx
    exact mem_biUnion.2 ⟨t, mem_range.2 ht, mem_filter.2 ⟨mem_univ _, h⟩⟩
  refine (card_le_card hsub).trans (card_biUnion_le.trans ?_)
  refine (sum_le_card_nsmul _ _ _ fun t _ => ?_).trans (le_of_eq (by rw [card_range, smul_eq_mul]))
  rw [hg.sl]
  exact (le_of_eq (by congr)).trans (card_overload hg hs (φ t) (hφ t))

/-- **C117 (binary fuse filters).** Take `N` independent uniform 64-bit keys. Whatever the fingerprint width, the initial
cells, and the geometry the size gives, the release-build constructor either reports `FilterFailed` or returns a filter
that contains every key, except for at most a `1000 * cells * C(N,64) * (hits/2^64)^64` share of the key tuples. -/
theorem C117_binary_fuse (w segExp cap0 N : Nat) (fp0 : Nat → BitVec w) (lay : Layout)
    (hlay : bfLayout N segExp cap0 = .ok lay) (bad : Finset (Fin N → Fin (2 ^ 64)))
    (hbad : ∀ x ∈ bad, ¬ (BinaryFuse.tryFrom w .release segExp cap0 fp0 (wordList x) = .err .filterFailed ∨
      ∃ f, BinaryFuse.tryFrom w .release segExp cap0 fp0 (wordList x) = .ok f ∧
        ∀ i, f.contains (BitVec.ofFin (x i)) = .ok true)) :
    bad.card ≤ 1000 * (lay.arrayLen * (N.choose 64 *
      slotHits lay.segmentCount lay.geom.segmentLength.toNat ^ 64 * (2 ^ 64) ^ (N - 64))) := by
  refine card_overload_many hlay (fun t k => mix k (splitmixSeed 1#64 t)) (fun t => (C32_mix_bijective _).1) 1000 bad ?_
  intro x hx
  by_contra hcon
  push Not at hcon
  refine hbad x hx ?_
  have hlen : (wordList x).length = N := List.length_ofFn
  have hl : ∀ t < 1000, ∀ s, slotLoadX lay.geom (splitmixSeed 1#64 t) (wordList x) s < 64 := by
    intro t ht s
    rw [slotLoadX_eq]
    exact hcon t ht s
  rcases C40_total w .release segExp cap0 fp0 (wordList x) lay (by rw [hlen]; exact hlay) (fun h => by cases h) hl with
    ⟨f, hf, hgm, t, ht, hsd⟩ | h
  · right
    refine ⟨f, hf, fun i => ?_⟩
    refine C40_no_false_negatives w .release segExp cap0 fp0 _ f hf (Or.inr ?_) _ ?_
    · rw [hgm, hsd]; exact hl t ht
    · unfold wordList
      rw [List.mem_ofFn]
      exact ⟨i, rfl⟩
  · exact Or.inl h

/-- The sizes the library computes for up to `2^24` keys. -/
theorem sized_layout (log : ℚ → ℚ) (hlog : LogAccurate log) (N : Nat) (hN : N ≤ 2 ^ 24) :
    ∃ lay, bfLayout N (bfSegExp log N) (bfCap0 log N) = .ok lay ∧ N ≤ lay.arrayLen ∧ lay.arrayLen ≤ 2 ^ 25 := by
  rcases Nat.lt_or_ge N 2 with h | h
  · obtain ⟨lay, h1, h2⟩ := C76_tiny log hlog N (by omega)
    exact ⟨lay, h1, by omega, by omega⟩
  · obtain ⟨lay, e, h1, h2, _, _, _, _, h3, _, h4⟩ := C76_layout log hlog N h (by omega)
    refine ⟨lay, h1, by omega, ?_⟩
    have hsl : (lay.geom.segmentLength.toNat : ℝ) ≤ 262144 := by
      rw [h2]; exact_mod_cast Nat.min_le_right _ _
    have hNr : (N : ℝ) ≤ 16777216 := by exact_mod_cast hN
    have hcap : idealCap N ≤ 18874368 := by
      by_cases hM : 1000000 ≤ N
      · rw [idealCap_large hM]; linarith
      · have := idealCap_small h
        have hn' : (N : ℝ) ≤ 1000000 := by exact_mod_cast (by omega : N ≤ 1000000)
        linarith
    have : (lay.arrayLen : ℝ) ≤ 33554432 := h4.trans (max_le (by linarith) (by linarith))
    exact_mod_cast this

theorem overload_sized {N : Nat} {lay : Layout} {segExp cap0 : Nat} (hN : N ≤ 2 ^ 24)
    (hlay : bfLayout N segExp cap0 = .ok lay) (h1 : N ≤ lay.arrayLen) (h2 : lay.arrayLen ≤ 2 ^ 25) :
    1000 * (lay.arrayLen * (N.choose 64 *
      slotHits lay.segmentCount lay.geom.segmentLength.toNat ^ 64 * (2 ^ 64) ^ (N - 64))) * 2 ^ 100 ≤ (2 ^ 64) ^ N := by
  obtain ⟨s, hs, hg⟩ := bfLayout_wf hlay
  rw [hg.sl]
  exact overload_num h2 (hits_num hg.kpos (Nat.two_pow_pos s) (Nat.pow_le_pow_right (by omega) hs) hN
    (by rw [hg.len_eq]; exact h1))

/-- **C117 (binary fuse filters, the sizes the library computes).** For up to `2^24` independent uniform 64-bit keys,
the release-build constructor reports `FilterFailed` or returns a filter that contains every key, with probability at
least `1 - 2^-100`: hangs (C80) and lost keys (C82, C100) need key sets nobody draws by chance. -/
theorem C117_binary_fuse_sized (log : ℚ → ℚ) (hlog : LogAccurate log) (w N : Nat) (hN : N ≤ 2 ^ 24) (fp0 : Nat → BitVec w)
    (bad : Finset (Fin N → Fin (2 ^ 64)))
    (hbad : ∀ x ∈ bad, ¬ (
      BinaryFuse.tryFrom w .release (bfSegExp log N) (bfCap0 log N) fp0 (wordList x) = .err .filterFailed ∨
      ∃ f, BinaryFuse.tryFrom w .release (bfSegExp log N) (bfCap0 log N) fp0 (wordList x) = .ok f ∧
        ∀ i, f.contains (BitVec.ofFin (x i)) = .ok true)) :
    bad.card * 2 ^ 100 ≤ (2 ^ 64) ^ N := by
  obtain ⟨lay, hlay, h1, h2⟩ := sized_layout log hlog N hN
  exact (Nat.mul_le_mul_right _ (C117_binary_fuse w _ _ N fp0 lay hlay bad hbad)).trans (overload_sized hN hlay h1 h2)

theorem birthday_arith (M : Nat) : ∀ N : Nat, 2 * M * M ^ N ≤ 2 * M * M.descFactorial N + N * (N - 1) * M ^ N
  | 0 => by simp
  | N + 1 => by
    have ih := birthday_arith M N
    have hd := Nat.descFactorial_le_pow M N
    rw [Nat.descFactorial_succ, Nat.pow_succ, Nat.add_sub_cancel]
    generalize M.descFactorial N = D at ih hd ⊢
    generalize M ^ N = P at ih hd ⊢
    have h1 : M * D ≤ (M - N) * D + N * P := by
      calc M * D ≤ (M - N + N) * D := Nat.mul_le_mul_right _ (by omega)
        _ = (M - N) * D + N * D := Nat.add_mul _ _ _
        _ ≤ _ := Nat.add_le_add_left (Nat.mul_le_mul_left _ hd) _
    have hN : N * (N - 1) + 2 * N = (N + 1) * N := by
      cases N with
      | zero => rfl
      | succ n => rw [Nat.add_sub_cancel]; ring
    calc 2 * M * (P * M) = M * (2 * M * P) := by ring
      _ ≤ M * (2 * M * D + N * (N - 1) * P) := Nat.mul_le_mul_left _ ih
      _ = 2 * M * (M * D) + N * (N - 1) * (P * M) := by ring
      _ ≤ 2 * M * ((M - N) * D + N * P) + N * (N - 1) * (P * M) := Nat.add_le_add_right (Nat.mul_le_mul_left _ h1) _
      _ = 2 * M * ((M - N) * D) + (N * (N - 1) + 2 * N) * (P * M) := by ring
      _ = _ := by rw [hN]

open scoped Classical in
theorem card_not_injective (M N : Nat) :
    2 * M * (univ.filter fun x : Fin N → Fin M => ¬ Function.Injective x).card ≤ N * (N - 1) * M ^ N := by
  have h1 := Finset.card_filter_add_card_filter_not (s := (univ : Finset (Fin N → Fin M))) (fun x => Function.Injective x)
  have h2 : (univ.filter fun x : Fin N → Fin M => Function.Injective x).card = M.descFactorial N := by
    have := Fintype.card_embedding_eq (α := Fin N) (β := Fin M)
    rw [Fintype.card_fin, Fintype.card_fin] at this
    rw [← this, ← Fintype.card_subtype]
    exact Fintype.card_congr (Equiv.subtypeInjectiveEquivEmbedding _ _)
  have h3 := birthday_arith M N
  rw [h2, card_univ, Fintype.card_fun, Fintype.card_fin, Fintype.card_fin] at h1
  rw [← h1, Nat.mul_add] at h3
  rw [← h1]
  omega

/-- **C117 (key-value databases).** For every size up to `2^24` there is a set `bad` of tuples of key hashes, at most a
`N^2 / 2^65` share of all (below 64 entries: only tuples with a repeated hash), such that for every database and every filter seed whose key hashes are not in `bad`, the
release-build constructor panics (the keys cannot be peeled) or returns a shard that serves *every* entry: for every
key and all client randomness the row parsed is the stored value exactly if the noise of every column is in the window
of C04. No condition on collisions or slot loads is left. -/
theorem C117_kv (log : ℚ → ℚ) (hlog : LogAccurate log) (N : Nat) (hN0 : 0 < N) (hN : N ≤ 2 ^ 24) :
    ∃ bad : Finset (Fin N → Fin (2 ^ 64)), 2 ^ 65 * bad.card ≤ N ^ 2 * (2 ^ 64) ^ N ∧
      (N < 64 → ∀ x ∈ bad, ¬ Function.Injective x) ∧
      ∀ (x : Fin N → Fin (2 ^ 64)), x ∉ bad → ∀ (filterSeed : List U8) (kvs : List KeyValue) (hkv : kvs.length = N),
        filterSeed.length = 32 →
        (∀ i : Fin N, mix256 (kvs[i.val]'(hkv ▸ i.isLt)).key filterSeed = .ok (BitVec.ofFin (x i))) →
        ∀ (prg : Prg) (pseed : List U8) (fp0 : Nat → Nat → U32) (n m T b : Nat), 0 < T → T < 2 ^ 64 → 1 ≤ b → b ≤ 31 →
        (∀ kv ∈ kvs, kv.value.length = width T b) →
        KVShard.new .release prg pseed (bfSegExp log N) (bfCap0 log N) fp0 filterSeed kvs n m T b = .panic ∨
        ∃ shard, KVShard.new .release prg pseed (bfSegExp log N) (bfCap0 log N) fp0 filterSeed kvs n m T b = .ok shard ∧
          ∀ (tape tape' : List U32) (qp : QueryParams FilterParams),
            generateKvQueryParams (commonParamsFrom prg shard.baseParams.publicSeed shard.baseParams.dim
              shard.baseParams.m) shard.baseParams tape = .ok (qp, tape') →
            ∃ s t1 e, randomTernaryVector n tape = .ok (s, t1) ∧
              randomTernaryVector shard.baseParams.m t1 = .ok (e, tape') ∧
              ∀ i (hi : i < kvs.length), ∃ qp' q bytes resp row, qp.generateKvQuery .release kvs[i].key = (qp', .ok q) ∧
                shard.respond q = .ok bytes ∧ bincodeDeserialize bytes = .ok resp ∧
                qp'.parseKvRow .release resp kvs[i].key = .ok row ∧
                (row = kvs[i].value.map (fun v => BitVec.ofNat 32 (v.toNat % 2 ^ b)) ↔
                  ∀ col ∈ shard.db.entries, InWindow b (dot e col)) := by
  classical
  obtain ⟨lay, hlay, hl1, hl2⟩ := sized_layout log hlog N hN
  refine ⟨(univ.filter fun x : Fin N → Fin (2 ^ 64) => ¬ ∀ s, cnt lay.geom (wordList x) s < 64) ∪
    (univ.filter fun x : Fin N → Fin (2 ^ 64) => ¬ Function.Injective x), ?_, ?_, ?_⟩
  · have h1 := card_overload_many hlay (fun _ h => h) (fun _ => Function.injective_id) 1
      (univ.filter fun x : Fin N → Fin (2 ^ 64) => ¬ ∀ s, cnt lay.geom (wordList x) s < 64) (by
        intro x hx
        refine ⟨0, by omega, ?_⟩
        rw [List.map_id']
        exact (mem_filter.1 hx).2)
    have h2 := overload_sized hN hlay hl1 hl2
    have h3 : 2 * 2 ^ 64 * (univ.filter fun x : Fin N → Fin (2 ^ 64) => ¬ Function.Injective x).card ≤
        N * (N - 1) * (2 ^ 64) ^ N := (le_of_eq (by congr)).trans (card_not_injective (2 ^ 64) N)
    refine (Nat.mul_le_mul_left _ (card_union_le _ _)).trans ?_
    generalize (univ.filter fun x : Fin N → Fin (2 ^ 64) => ¬ ∀ s, cnt lay.geom (wordList x) s < 64).card = A at h1 ⊢
    generalize (univ.filter fun x : Fin N → Fin (2 ^ 64) => ¬ Function.Injective x).card = B at h3 ⊢
    generalize lay.arrayLen * (N.choose 64 * slotHits lay.segmentCount lay.geom.segmentLength.toNat ^ 64 *
      (2 ^ 64) ^ (N - 64)) = C at h1 h2
    generalize (2 ^ 64) ^ N = P at h2 h3 ⊢
    have e1 : 2 ^ 65 * A ≤ P := by omega
    have e2 : N * (N - 1) + N = N ^ 2 := by
      cases N with
      | zero => rfl
      | succ n => rw [Nat.add_sub_cancel]; ring
    have e3 : P ≤ N * P := Nat.le_mul_of_pos_left _ hN0
    have e4 : 2 ^ 65 * B ≤ N * (N - 1) * P := h3
    rw [Nat.mul_add, ← e2, Nat.add_mul]
    omega
  · intro h64 x hx
    rcases mem_union.1 hx with h | h
    · refine absurd (fun s => ?_) (mem_filter.1 h).2
      have : cnt lay.geom (wordList x) s ≤ (wordList x).length := List.countP_le_length
      unfold wordList at this ⊢
      rw [List.length_ofFn] at this
      omega
    · exact (mem_filter.1 h).2
  · intro x hx filterSeed kvs hkv hseed hhash prg pseed fp0 n m T b hT0 hT hb1 hb hw
    rw [mem_union, not_or, mem_filter, mem_filter] at hx
    have hload := not_not.1 fun h => hx.1 ⟨mem_univ _, h⟩
    have hinj := not_not.1 fun h => hx.2 ⟨mem_univ _, h⟩
    subst hkv
    have hmap : mapRes (fun k => mix256 k filterSeed) (kvs.map (·.key)) = .ok (wordList x) := by
      rw [mapRes_eq_ok, List.map_map]
      refine List.ext_getElem (by simp [wordList]) fun i h1 h2 => ?_
      rw [List.length_map] at h1
      rw [List.getElem_map, List.getElem_map]
      unfold wordList
      rw [List.getElem_ofFn]
      exact hhash ⟨i, h1⟩
    have hld : ∀ s, slotLoad filterSeed lay.geom (kvs.map (·.key)) s < 64 := by
      intro s
      rw [slotLoad_eq hmap]
      exact hload s
    have hne : ∀ i (hi : i < kvs.length) k (hk : k < kvs.length), i < k →
        mix256 kvs[k].key filterSeed ≠ mix256 kvs[i].key filterSeed := by
      intro i hi k hk hik he
      have h1 := hhash ⟨i, hi⟩
      have h2 := hhash ⟨k, hk⟩
      simp only at h1 h2
      rw [he, h1] at h2
      have h3 : x ⟨i, hi⟩ = x ⟨k, hk⟩ := by
        have := Res.ok.inj h2
        exact congrArg BitVec.toFin this
      have h4 := congrArg Fin.val (hinj h3)
      simp only at h4
      omega
    have hnd : (kvs.map fun kv => mix256 kv.key filterSeed).Nodup := by
      rw [List.nodup_iff_pairwise_ne, List.pairwise_map, List.pairwise_iff_getElem]
      intro i j hi hj hij
      exact (hne i hi j hj hij).symm
    obtain ⟨c1, c2⟩ := C62_kv_build .release prg pseed (bfSegExp log kvs.length) (bfCap0 log kvs.length) fp0 filterSeed kvs
      n m T b lay hT0 hb1 hb (fun h => by cases h) (by rintro rfl; simp at hN0) hw hlay hseed hld hnd
    by_cases hp : CanPeel (touchesP filterSeed lay.geom) (kvs.map (·.key))
    · right
      obtain ⟨shard, hsh⟩ := c1 hp
      refine ⟨shard, hsh, ?_⟩
      intro tape tape' qp hgen
      have hgeom : shard.db.filterParams.geom = lay.geom := by
        have hnew := hsh
        unfold KVShard.new at hnew
        obtain ⟨db, hdb, hnew⟩ := Res.bind_eq_ok.1 hnew
        obtain ⟨bp, hbp, hnew⟩ := Res.bind_eq_ok.1 hnew
        have hsdb : shard.db = db := by cases hnew; rfl
        obtain ⟨lay', p, w, h0, hwv, hw0, hlay', hp, hfp, _⟩ := kvNew_ok hdb
        rw [hlay] at hlay'
        cases hlay'
        rw [hsdb, hfp]
      obtain ⟨s, t1, e, hs, he, _, hall⟩ := C04_kv_pir .release prg pseed _ _ fp0 filterSeed kvs n m T b shard hb1 hb hT hsh
        hw (Or.inr (by rw [hgeom]; exact hld)) tape tape' qp hgen
      refine ⟨s, t1, e, hs, he, ?_⟩
      intro i hi
      obtain ⟨qp', q, bytes, resp, row, a1, a2, a3, a4, _, _, a5⟩ := hall i hi (fun k hk hik => hne i hi k hk hik)
      exact ⟨qp', q, bytes, resp, row, a1, a2, a3, a4, a5⟩
    · exact Or.inl (c2 hp)

/-- Two keys and a 32-byte seed whose hashes satisfy the hypotheses of `C117_kv` for every admissible `bad`: the theorem
applies to them. -/
example : ∃ (x : Fin 2 → Fin (2 ^ 64)) (kvs : List KeyValue) (hkv : kvs.length = 2), Function.Injective x ∧
    exSeed.length = 32 ∧
    (∀ i : Fin 2, mix256 (kvs[i.val]'(by omega)).key exSeed = .ok (BitVec.ofFin (x i))) ∧
    (∀ kv ∈ kvs, kv.value.length = width 16 8) := by
  have h2 : exSeed.length = 32 := by decide +kernel
  obtain ⟨a, ha⟩ := mix256_total h2 exKey
  obtain ⟨c, hc⟩ := mix256_total h2 [5#64, 6#64, 7#64, 8#64]
  have hne : mix256 exKey exSeed ≠ mix256 [5#64, 6#64, 7#64, 8#64] exSeed := by decide +kernel
  refine ⟨fun i => if i = 0 then a.toFin else c.toFin, [⟨exKey, [1#32, 2#32]⟩, ⟨[5#64, 6#64, 7#64, 8#64], [3#32, 4#32]⟩], rfl,
    ?_, h2, ?_, ?_⟩
  · intro i j h
    have hac : a.toFin ≠ c.toFin := fun h => hne (by rw [ha, hc, BitVec.eq_of_toFin_eq h])
    rcases (by omega : i = 0 ∨ i = 1) with rfl | rfl <;> rcases (by omega : j = 0 ∨ j = 1) with rfl | rfl
    · rfl
    · exact absurd h hac
    · exact absurd h.symm hac
    · rfl
  · intro i
    rcases (by omega : i = 0 ∨ i = 1) with rfl | rfl
    · exact ha
    · exact hc
  · decide +kernel

/-- A million keys: hypotheses met with the `log` of `exists_logAccurate`; the exceptional set is a `2^-100` share, the
filter itself has over 1.1 million cells. -/
example : ∃ log, LogAccurate log ∧ ∃ lay, bfLayout 1000000 (bfSegExp log 1000000) (bfCap0 log 1000000) = .ok lay ∧
    1125000 ≤ lay.arrayLen + 1 := by
  obtain ⟨log, h⟩ := exists_logAccurate
  obtain ⟨lay, _, h1, _, _, _, _, h2, _⟩ := C76_layout log h 1000000 (by norm_num) (by norm_num)
  exact ⟨log, h, lay, h1, by omega⟩

end Chalamet
