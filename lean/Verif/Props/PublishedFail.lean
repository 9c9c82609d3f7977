import Verif.Props.Birthday
import Verif.Props.Published
import Verif.Props.OwnTestsKv

/-!
# C120 at the sizes the project uses

The keyword test of `src/api.rs` (2^12 entries) and the keyword benchmarks of the Makefile (2^14 to 2^20 entries).
-/

namespace Chalamet
open Spec

theorem share_of {N : Nat} {x r : ℝ} {p S : ℝ} {stuck : Nat} (hN : N ≤ 2 ^ 20) (hS : S = p)
    (hcard : (1 - Real.exp (-(7 / 16 * (N * (N - 1)) / S)) - (N : ℝ) ^ 2 / 2 ^ 65) * ((2 ^ 64 : Nat) : ℝ) ^ N ≤ stuck)
    (hx : x ≤ 7 / 16 * (N * (N - 1)) / p) (hx0 : 0 ≤ x) (hr : (r + 0.00002) * (1 + x) ≤ x) :
    r * ((2 ^ 64 : Nat) : ℝ) ^ N ≤ stuck := by
  subst hS
  refine le_trans (mul_le_mul_of_nonneg_right ?_ (by positivity)) hcard
  have h1 : Real.exp (-(7 / 16 * (N * (N - 1)) / S)) ≤ 1 / (1 + x) := by
    refine (Real.exp_le_exp.2 (neg_le_neg hx)).trans ?_
    rw [Real.exp_neg, ← one_div]
    exact one_div_le_one_div_of_le (by linarith) (by linarith [Real.add_one_le_exp x])
  have h2 : 1 / (1 + x) ≤ 1 - (r + 0.00002) := by
    rw [div_le_iff₀ (by linarith)]
    nlinarith
  have hNr : (N : ℝ) ≤ 1048576 := by exact_mod_cast hN
  have hsq : (N : ℝ) ^ 2 / 2 ^ 65 ≤ 0.00002 := by
    rw [div_le_iff₀ (by positivity)]
    calc (N : ℝ) ^ 2 ≤ 1048576 ^ 2 := pow_le_pow_left₀ (Nat.cast_nonneg _) hNr 2
      _ ≤ _ := by norm_num
  linarith

/-- **C120 (the project's own sizes).** At the number of entries of the keyword test in `src/api.rs` (2^12), of the default of the
command line (2^16) and of the other keyword benchmarks of the Makefile, at least the given number of filter seeds in a thousand (6,
or 3 for 2^17 and 2^19 entries) makes `KVShard::new` panic, if key hashes are uniform: independently of the values, the digit size
and everything else. -/
theorem C120_project_sizes (log : ℚ → ℚ) (hlog : LogAccurate log) (N k r : Nat) (hN : N = 2 ^ k)
    (hset : (k, r) ∈ [(12, 6), (14, 6), (16, 6), (17, 3), (18, 6), (19, 3), (20, 6)]) :
    ∃ stuck : Finset (Fin N → Fin (2 ^ 64)), r * (2 ^ 64) ^ N ≤ 1000 * stuck.card ∧
      ∀ x ∈ stuck, ∀ (prof : Profile) (filterSeed : List U8) (kvs : List KeyValue) (hkv : kvs.length = N),
        filterSeed.length = 32 →
        (∀ i : Fin N, mix256 (kvs[i.val]'(hkv ▸ i.isLt)).key filterSeed = .ok (BitVec.ofFin (x i))) →
        ∀ (prg : Prg) (pseed : List U8) (fp0 : Nat → Nat → U32) (n m T b : Nat), 0 < T → 1 ≤ b → b ≤ 31 →
        (prof = .debug → 8 ≤ b) → (∀ kv ∈ kvs, kv.value.length = width T b) →
        KVShard.new prof prg pseed (bfSegExp log N) (bfCap0 log N) fp0 filterSeed kvs n m T b = .panic := by
  have hlays : ∃ e c : Nat, 1 ≤ k ∧ k ≤ 20 ∧ e ≤ 18 ∧
      bfLayout (2 ^ k) (bfSegExp log (2 ^ k)) (bfCap0 log (2 ^ k)) =
        .ok ⟨⟨BitVec.ofNat 32 (2 ^ e), BitVec.ofNat 32 (2 ^ e - 1), BitVec.ofNat 32 (c * 2 ^ e)⟩, (c + 2) * 2 ^ e, c⟩ ∧
      ∃ x : ℝ, 0 ≤ x ∧ x ≤ 7 / 16 * (2 ^ k * (2 ^ k - 1)) / (c * (2 ^ e) ^ 3) ∧ ((r : ℝ) / 1000 + 0.00002) * (1 + x) ≤ x := by
    have key := layout_two_pow hlog
    have lays := C107_layouts log hlog
    simp only [List.mem_cons, List.not_mem_nil, or_false, Prod.mk.injEq] at hset
    rcases hset with ⟨rfl, rfl⟩ | ⟨rfl, rfl⟩ | ⟨rfl, rfl⟩ | ⟨rfl, rfl⟩ | ⟨rfl, rfl⟩ | ⟨rfl, rfl⟩ | ⟨rfl, rfl⟩
    · exact ⟨9, 9, by omega, by omega, by omega, key 12 9 9 (by norm_num) (by norm_num) (by norm_num) (by norm_num)
        (by norm_num) (by norm_num) (by rw [max_eq_right (by norm_num)]; norm_num) (by rw [max_eq_right (by norm_num)]; norm_num)
        (by norm_num), 0.00607, by norm_num, by norm_num, by norm_num⟩
    · exact ⟨10, 18, by omega, by omega, by omega, lays 14 10 18 (by simp), 0.00607, by norm_num, by norm_num, by norm_num⟩
    · exact ⟨11, 36, by omega, by omega, by omega, lays 16 11 36 (by simp), 0.00607, by norm_num, by norm_num, by norm_num⟩
    · exact ⟨12, 36, by omega, by omega, by omega, lays 17 12 36 (by simp), 0.00303, by norm_num, by norm_num, by norm_num⟩
    · exact ⟨12, 72, by omega, by omega, by omega, lays 18 12 72 (by simp), 0.00607, by norm_num, by norm_num, by norm_num⟩
    · exact ⟨13, 71, by omega, by omega, by omega, lays 19 13 71 (by simp), 0.00303, by norm_num, by norm_num, by norm_num⟩
    · exact ⟨13, 142, by omega, by omega, by omega, lays 20 13 142 (by simp), 0.00607, by norm_num, by norm_num, by norm_num⟩
  obtain ⟨e, c, hk1, hk20, he, hlay, x, hx0, hx, hr⟩ := hlays
  have hN2 : 2 ≤ N := by
    rw [hN]
    calc 2 = 2 ^ 1 := rfl
      _ ≤ _ := Nat.pow_le_pow_right (by omega) hk1
  have hN20 : N ≤ 2 ^ 20 := by rw [hN]; exact Nat.pow_le_pow_right (by omega) hk20
  rw [← hN] at hlay
  obtain ⟨stuck, hcard, hall⟩ := C120_stuck log hlog N hN2 (hN20.trans (by norm_num)) _ hlay
  refine ⟨stuck, ?_, hall⟩
  have he32 : 2 ^ e < 2 ^ 32 := Nat.pow_lt_pow_right (by omega) (by omega)
  have hS := share_of (x := x) (r := (r : ℝ) / 1000) (p := c * (2 ^ e) ^ 3) hN20 (by
    simp only [BitVec.toNat_ofNat]
    rw [Nat.mod_eq_of_lt he32]
    push_cast
    ring) hcard (by rw [hN]; push_cast; exact hx) hx0 hr
  have h1000 : (r : ℝ) * ((2 ^ 64 : Nat) : ℝ) ^ N ≤ 1000 * stuck.card := by
    rw [div_mul_eq_mul_div, div_le_iff₀ (by norm_num)] at hS
    linarith
  exact_mod_cast h1000

/-- **C110 (the keyword test fails for 6 filter seeds in 1000).** `client_kv_query_to_server_10_times` as written (4096 pairs, 256-bit
values, 11-bit digits): for at least 6 in 1000 of all tuples of key hashes, whatever else was drawn, it panics because the shard cannot
be built. -/
theorem C110_kv_test_unbuildable (log : ℚ → ℚ) (hlog : LogAccurate log) :
    ∃ stuck : Finset (Fin 4096 → Fin (2 ^ 64)), 6 * (2 ^ 64) ^ 4096 ≤ 1000 * stuck.card ∧
      ∀ x ∈ stuck, ∀ (prof : Profile) (sha : Sha) (_ : ∀ x, (sha x).length = 32) (prg : Prg) (utf8 : List Char → List U8)
        (ent : Nat → U8) (pseed : List U8) (fp0 : Nat → Nat → U32) (filterSeed : List U8) (tapes : Nat → List U32),
        filterSeed.length = 32 →
        (∀ i : Fin 4096, ∃ key,
          sha256IntoU64Sized sha (utf8 (b64Encode ((List.range 32).map fun k => ent (i.val * 64 + k)))) = .ok key ∧
          mix256 key filterSeed = .ok (BitVec.ofFin (x i))) →
        testKv prof sha prg utf8 ent pseed (bfSegExp log 4096) (bfCap0 log 4096) fp0 filterSeed tapes 4096 512 256 11 10 =
          .panic := by
  obtain ⟨stuck, hcard, hall⟩ := C120_project_sizes log hlog 4096 12 6 (by norm_num) (by simp)
  refine ⟨stuck, hcard, ?_⟩
  intro x hx prof sha hsha prg utf8 ent pseed fp0 filterSeed tapes hseed hhash
  obtain ⟨kvs, hl, hkv, hp, -⟩ := C110_kv_test prof sha hsha prg utf8 ent pseed (bfSegExp log 4096) (bfCap0 log 4096) fp0 filterSeed
    tapes 4096 512 256 11 10 (by omega) (by omega) (by norm_num) (by omega)
  refine hp (hall x hx prof filterSeed kvs hl hseed ?_ prg pseed fp0 512 4096 256 11 (by omega) (by omega) (by omega) (by omega) ?_)
  · intro i
    obtain ⟨key, h1, h2⟩ := hhash i
    have := (hkv i.val (by rw [hl]; exact i.isLt)).1
    rw [show 32 + (256 + 7) / 8 = 64 from rfl, h1] at this
    rw [← Res.ok.inj this]
    exact h2
  · intro kv hm
    obtain ⟨i, hi, rfl⟩ := List.getElem_of_mem hm
    rw [(hkv i hi).2, rowOf_length]

/-- Non-vacuity: the sets of C120 are not empty (6 in 1000 of a positive number). -/
example (log : ℚ → ℚ) (hlog : LogAccurate log) : ∃ stuck : Finset (Fin 4096 → Fin (2 ^ 64)), stuck.Nonempty := by
  obtain ⟨stuck, h, -⟩ := C120_project_sizes log hlog 4096 12 6 (by norm_num) (by simp)
  refine ⟨stuck, Finset.card_pos.1 ?_⟩
  have : 0 < 6 * (2 ^ 64) ^ 4096 := Nat.mul_pos (by norm_num) (Nat.pow_pos (by norm_num))
  generalize (2 ^ 64) ^ 4096 = P at *
  omega

end Chalamet
