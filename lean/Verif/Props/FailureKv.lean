import Verif.Props.FailureRate
import Verif.Props.Sizes

/-!
# Failure rate of keyword retrieval at the benchmarked sizes: C56

The keyword matrix has one row per filter slot, so the general bound `C56_kv_failure_rate` depends on the size
of the filter, which the code computes in floating point (C76). This file puts the two together.
-/

namespace Chalamet
open Spec

theorem failureBound_mono {m m' T b : Nat} (h : m ≤ m') (h0 : 0 < m) (hb : 1 ≤ b) :
    Spec.failureBound m T b ≤ Spec.failureBound m' T b := by
  have hm : (m : ℝ) ≤ m' := Nat.cast_le.2 h
  have hm0 : (0 : ℝ) < m := Nat.cast_pos.2 h0
  have h2 : (0 : ℝ) < 2 ^ b - 1 := by
    have := one_lt_pow₀ (one_lt_two (α := ℝ)) (show b ≠ 0 by omega)
    linarith
  unfold Spec.failureBound
  gcongr

theorem log_two_pow (k : Nat) : Real.log ((2 ^ k : ℕ) : ℝ) = k * Real.log 2 := by
  push_cast; rw [Real.log_pow]

theorem idealCap_two_pow {k : Nat} (h1 : 1 ≤ k) (h : k ≤ 20) : idealCap (2 ^ k) ≤ 2 ^ k * (0.875 + 5 / k) := by
  have h20 : Real.log 1000000 ≤ 20 * Real.log 2 := by
    have : Real.log 1000000 ≤ Real.log ((2 : ℝ) ^ 20) := Real.log_le_log (by norm_num) (by norm_num)
    rw [Real.log_pow] at this
    exact_mod_cast this
  have hl2 : 0 < Real.log 2 := Real.log_pos (by norm_num)
  have hk : (1 : ℝ) ≤ k := by exact_mod_cast h1
  have hk20 : (k : ℝ) ≤ 20 := by exact_mod_cast h
  unfold idealCap
  rw [log_two_pow]
  push_cast
  refine mul_le_mul_of_nonneg_left (max_le ?_ ?_) (by positivity)
  · have : (0.25 : ℝ) ≤ 5 / k := by rw [le_div_iff₀ (by linarith)]; linarith
    linarith
  · have : 0.25 * Real.log 1000000 / (k * Real.log 2) ≤ 5 / k := by
      rw [div_le_div_iff₀ (by positivity) (by linarith)]
      nlinarith
    linarith

/-- The size of the filter of `2^k` keys. -/
theorem arrayLen_two_pow (log : ℚ → ℚ) (hlog : LogAccurate log) (k e2 : Nat) (h2 : 10 ≤ k) (h : k ≤ 20)
    (he : (k : ℝ) * 0.6931471808 / 1.2 + 2.26 < e2 + 1) (hek : 3 * 2 ^ e2 ≤ 2 ^ k) (lay : Layout)
    (hlay : bfLayout (2 ^ k) (bfSegExp log (2 ^ k)) (bfCap0 log (2 ^ k)) = .ok lay) :
    (lay.arrayLen : ℝ) ≤ 2 ^ k * (0.875 + 5 / k) + 2 ^ e2 ∧ 0 < lay.arrayLen := by
  have hp : (2 : Nat) ^ k ≤ 2 ^ 20 := Nat.pow_le_pow_right (by omega) h
  have hp2 : (2 : Nat) ^ 10 ≤ 2 ^ k := Nat.pow_le_pow_right (by omega) h2
  obtain ⟨lay', e, hlay', hseg, he1, _, _, _, hlt, _, hup⟩ :=
    C76_layout log hlog (2 ^ k) (by omega) (by omega)
  rw [hlay] at hlay'
  cases hlay'
  refine ⟨?_, by omega⟩
  have hcap := idealCap_two_pow (k := k) (by omega) h
  have hee : e ≤ e2 := by
    have h333 := log_333
    have hl2 := Real.log_two_lt_d9
    have hk0 : (0 : ℝ) ≤ k := Nat.cast_nonneg k
    have hi : idealExp (2 ^ k) ≤ (k : ℝ) * 0.6931471808 / 1.2 + 2.25 := by
      unfold idealExp
      rw [log_two_pow]
      have : (k : ℝ) * Real.log 2 / Real.log 3.33 ≤ (k : ℝ) * 0.6931471808 / 1.2 := by
        have h0 : 0 < Real.log 2 := Real.log_pos (by norm_num)
        gcongr
      linarith
    have h36 : (1 : ℝ) / 2 ^ 36 ≤ 0.01 := by norm_num
    have : (e : ℝ) < ((e2 + 1 : ℕ) : ℝ) := by push_cast; linarith
    have : e < e2 + 1 := by exact_mod_cast this
    omega
  have hs : lay.geom.segmentLength.toNat ≤ 2 ^ e2 := by
    rw [hseg]
    exact le_trans (min_le_left _ _) (Nat.pow_le_pow_right (by omega) hee)
  have hs' : (lay.geom.segmentLength.toNat : ℝ) ≤ 2 ^ e2 := by exact_mod_cast hs
  have hek' : (3 : ℝ) * 2 ^ e2 ≤ 2 ^ k := by exact_mod_cast hek
  have hge := idealCap_ge (2 ^ k)
  push_cast at hge
  refine le_trans hup (max_le ?_ ?_)
  · have : (0 : ℝ) < 2 ^ k := by positivity
    have : (0 : ℝ) < 2 ^ e2 := by positivity
    linarith
  · linarith

open scoped Classical in
/-- **C56 (keyword retrieval, bound as a function of the filter size).** Build a shard from `kvs`, one entry per key, with the
sizes the code computes (for any accurate logarithm); the fraction of noise samples with which the exchange for the
`i`-th entry returns a wrong row is at most `failureBound h T b`, `h` being the number of slots of the filter. -/
theorem C56_kv_failure_rate_sized (log : ℚ → ℚ) (prof : Profile) (prg : Prg)
    (pseed : List U8) (fp0 : Nat → Nat → U32) (filterSeed : List U8) (kvs : List KeyValue) (n m T b : Nat)
    (shard : KVShard) (hb1 : 1 ≤ b) (hb : b ≤ 31) (hT : T < 2 ^ 64)
    (hsh : KVShard.new prof prg pseed (bfSegExp log kvs.length) (bfCap0 log kvs.length) fp0 filterSeed kvs n m T b
      = .ok shard)
    (hw : ∀ kv ∈ kvs, kv.value.length = width T b)
    (hload : prof = .debug ∨
      ∀ s, slotLoad filterSeed shard.db.filterParams.geom (kvs.map (·.key)) s < 64)
    (ts s : List U32) (hs : randomTernaryVector n ts = .ok (s, []))
    (i : Nat) (hi : i < kvs.length)
    (hlast : ∀ k (hk : k < kvs.length), i < k →
      mix256 kvs[k].key filterSeed ≠ mix256 kvs[i].key filterSeed) :
    ∃ lay, bfLayout kvs.length (bfSegExp log kvs.length) (bfCap0 log kvs.length) = .ok lay ∧
      shard.baseParams.m = lay.arrayLen ∧
      ((Finset.univ.filter fun t : Fin shard.baseParams.m → Fin 4294967293 =>
        ∃ row, kvExchange prof prg shard kvs[i].key (ts ++ words t) = .ok row ∧
          row ≠ kvs[i].value.map fun v => BitVec.ofNat 32 (v.toNat % 2 ^ b)).card : ℝ) ≤
      Spec.failureBound lay.arrayLen T b * 4294967293 ^ shard.baseParams.m := by
  have h := C56_kv_failure_rate prof prg pseed _ _ fp0 filterSeed kvs n m T b shard hb1 hb hT hsh hw hload ts s hs
    i hi hlast
  have hdb : KVDatabase.new prof (bfSegExp log kvs.length) (bfCap0 log kvs.length) fp0 filterSeed kvs m T b =
      .ok shard.db ∧ KVParams.new prg pseed shard.db n = .ok shard.baseParams := by
    unfold KVShard.new at hsh
    obtain ⟨db, hdb, hnew⟩ := Res.bind_eq_ok.1 hsh
    obtain ⟨bp, hbp, hnew⟩ := Res.bind_eq_ok.1 hnew
    cases hnew
    exact ⟨hdb, hbp⟩
  obtain ⟨lay, p, w, h0, hwv, hw0, hlay, hp, hfp, hdm, hdT, hdb', hel, hcols⟩ := kvNew_ok hdb.1
  have hmh : shard.baseParams.m = lay.arrayLen := by
    have h := hdb.2
    unfold KVParams.new at h
    obtain ⟨rhs, _, h⟩ := Res.bind_eq_ok.1 h
    obtain ⟨hh, hhe, h⟩ := Res.bind_eq_ok.1 h
    simp only [Res.ok.injEq] at h
    rw [← h]
    unfold KVDatabase.getMatrixHeight at hhe
    obtain ⟨c0, hc0, hhe⟩ := Res.bind_eq_ok.1 hhe
    cases hhe
    obtain ⟨hj, rfl⟩ := rd_eq_ok' hc0
    obtain ⟨_, _, _, _, _, _, _, _, _, hl⟩ := hcols 0 hj
    exact hl
  refine ⟨lay, hlay, hmh, ?_⟩
  unfold Spec.failureBound
  rw [← hmh]
  exact h

theorem kv_bound (log : ℚ → ℚ) (hlog : LogAccurate log) (k e2 M w x T b : Nat) (h2 : 10 ≤ k) (h : k ≤ 20)
    (he : (k : ℝ) * 0.6931471808 / 1.2 + 2.26 < e2 + 1) (hek : 3 * 2 ^ e2 ≤ 2 ^ k)
    (hM : (2 : ℝ) ^ k * (0.875 + 5 / k) + 2 ^ e2 ≤ M) (hw : width T b = w) (hb : 1 ≤ b) {B : ℝ}
    (hx : (x : ℝ) ≤ 3 * (2 ^ (31 - b)) ^ 2 / (4 * (M * (2 ^ b - 1) ^ 2)))
    (hB : 2 * w < B * 2.718 ^ x) (h0 : 0 < B) (hw0 : 0 < w) (lay : Layout)
    (hlay : bfLayout (2 ^ k) (bfSegExp log (2 ^ k)) (bfCap0 log (2 ^ k)) = .ok lay) :
    Spec.failureBound lay.arrayLen T b < B := by
  obtain ⟨h1, hpos⟩ := arrayLen_two_pow log hlog k e2 h2 h he hek lay hlay
  have hle : lay.arrayLen ≤ M := by exact_mod_cast le_trans h1 hM
  exact lt_of_le_of_lt (failureBound_mono hle hpos hb) (failureBound_lt w x hw hx hB h0 hw0)

/-- **C56 (keyword retrieval, benchmarked parameters).** The bound of `C56_kv_failure_rate_sized` at the parameter
sets of the keyword benchmark targets in /repo/Makefile (number of keys, bits per value, bits per digit), the first
being the command-line default. With `2^18` keys and 10-bit digits it only guarantees 92 in 100 exchanges. -/
theorem C56_kv_published_parameters (log : ℚ → ℚ) (hlog : LogAccurate log) (k T b : Nat) (B : ℝ)
    (hset : (k, T, b, B) ∈ [(16, 2 ^ 13, 10, 1 / 2 ^ 45), (17, 2 ^ 13, 10, 1 / 2 ^ 18), (18, 2 ^ 13, 10, 2 / 25),
      (19, 2 ^ 13, 9, 1 / 2 ^ 108), (20, 2 ^ 13, 9, 1 / 2 ^ 49), (14, 819200, 10, 1 / 2 ^ 195),
      (17, 245760, 10, 1 / 2 ^ 13), (20, 2 ^ 11, 9, (1 : ℝ) / 2 ^ 51)])
    (lay : Layout) (hlay : bfLayout (2 ^ k) (bfSegExp log (2 ^ k)) (bfCap0 log (2 ^ k)) = .ok lay) :
    Spec.failureBound lay.arrayLen T b < B := by
  simp only [List.mem_cons, List.not_mem_nil, or_false, Prod.mk.injEq] at hset
  rcases hset with ⟨rfl, rfl, rfl, rfl⟩ | ⟨rfl, rfl, rfl, rfl⟩ | ⟨rfl, rfl, rfl, rfl⟩ | ⟨rfl, rfl, rfl, rfl⟩ |
    ⟨rfl, rfl, rfl, rfl⟩ | ⟨rfl, rfl, rfl, rfl⟩ | ⟨rfl, rfl, rfl, rfl⟩ | ⟨rfl, rfl, rfl, rfl⟩
  · exact kv_bound log hlog 16 11 79872 820 39 _ _ (by norm_num) (by norm_num) (by norm_num) (by norm_num)
      (by norm_num) (by decide) (by norm_num) (by norm_num) (by norm_num) (by norm_num) (by norm_num) lay hlay
  · exact kv_bound log hlog 17 12 157335 820 20 _ _ (by norm_num) (by norm_num) (by norm_num) (by norm_num)
      (by norm_num) (by decide) (by norm_num) (by norm_num) (by norm_num) (by norm_num) (by norm_num) lay hlay
  · exact kv_bound log hlog 18 12 306290 820 10 _ _ (by norm_num) (by norm_num) (by norm_num) (by norm_num)
      (by norm_num) (by decide) (by norm_num) (by norm_num) (by norm_num) (by norm_num) (by norm_num) lay hlay
  · exact kv_bound log hlog 19 13 604915 911 83 _ _ (by norm_num) (by norm_num) (by norm_num) (by norm_num)
      (by norm_num) (by decide) (by norm_num) (by norm_num) (by norm_num) (by norm_num) (by norm_num) lay hlay
  · exact kv_bound log hlog 20 13 1187840 911 42 _ _ (by norm_num) (by norm_num) (by norm_num) (by norm_num)
      (by norm_num) (by decide) (by norm_num) (by norm_num) (by norm_num) (by norm_num) (by norm_num) lay hlay
  · exact kv_bound log hlog 14 10 21212 81920 148 _ _ (by norm_num) (by norm_num) (by norm_num) (by norm_num)
      (by norm_num) (by decide) (by norm_num) (by norm_num) (by norm_num) (by norm_num) (by norm_num) lay hlay
  · exact kv_bound log hlog 17 12 157335 24576 20 _ _ (by norm_num) (by norm_num) (by norm_num) (by norm_num)
      (by norm_num) (by decide) (by norm_num) (by norm_num) (by norm_num) (by norm_num) (by norm_num) lay hlay
  · exact kv_bound log hlog 20 13 1187840 228 42 _ _ (by norm_num) (by norm_num) (by norm_num) (by norm_num)
      (by norm_num) (by decide) (by norm_num) (by norm_num) (by norm_num) (by norm_num) (by norm_num) lay hlay

/-- Both hypotheses are met: an accurate logarithm exists, and with it the layout of `2^16` keys is computed. -/
example : ∃ log lay, LogAccurate log ∧
    bfLayout (2 ^ 16) (bfSegExp log (2 ^ 16)) (bfCap0 log (2 ^ 16)) = .ok lay := by
  obtain ⟨log, hlog⟩ := exists_logAccurate
  obtain ⟨lay, _, h, _⟩ := C76_layout log hlog (2 ^ 16) (by norm_num) (by norm_num)
  exact ⟨log, lay, hlog, h⟩

end Chalamet
