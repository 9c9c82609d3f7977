import Verif.Props.FailureKv
import Verif.Props.Space
import Verif.Props.KvServer
import Verif.Props.Witnesses

/-!
# C107: the sizes published for the benchmarked databases

The README prints the sizes of the key-value database of `2^16` pairs (segment length 2048, mask 2047, segment count length 73728,
matrix height 77824, 820 columns) and says that keyword retrieval costs at most 1.08 times as much as index retrieval.
-/

namespace Chalamet
open Spec

/-- Binary logarithms against the constants of the size formulas. -/
theorem log_ratios : 19 * Real.log 3.33 ≤ 33 * Real.log 2 ∧ 59 * Real.log 2 ≤ 34 * Real.log 3.33 ∧
    298 * Real.log 2 ≤ 15 * Real.log 1000000 ∧ 15 * Real.log 1000000 ≤ 299 * Real.log 2 := by
  refine ⟨?_, ?_, ?_, ?_⟩
  · have : Real.log ((3.33 : ℝ) ^ 19) ≤ Real.log ((2 : ℝ) ^ 33) := Real.log_le_log (by norm_num) (by norm_num)
    rw [Real.log_pow, Real.log_pow] at this
    exact_mod_cast this
  · have : Real.log ((2 : ℝ) ^ 59) ≤ Real.log ((3.33 : ℝ) ^ 34) := Real.log_le_log (by norm_num) (by norm_num)
    rw [Real.log_pow, Real.log_pow] at this
    exact_mod_cast this
  · have h : (2 : ℝ) ^ 298 ≤ 1000000 ^ 15 := by
      rw [show (298 : Nat) = 149 * 2 from rfl, pow_mul]
      norm_num
    have : Real.log ((2 : ℝ) ^ 298) ≤ Real.log ((1000000 : ℝ) ^ 15) := Real.log_le_log (by positivity) h
    rw [Real.log_pow, Real.log_pow] at this
    exact_mod_cast this
  · have h : (1000000 : ℝ) ^ 15 ≤ 2 ^ 299 := by
      rw [show (299 : Nat) = 23 * 13 from rfl, pow_mul]
      norm_num
    have : Real.log ((1000000 : ℝ) ^ 15) ≤ Real.log ((2 : ℝ) ^ 299) := Real.log_le_log (by norm_num) h
    rw [Real.log_pow, Real.log_pow] at this
    exact_mod_cast this

/-- The segment exponent of `2^k` keys, when rounding errors cannot matter. -/
theorem segExp_two_pow {log : ℚ → ℚ} (hlog : LogAccurate log) {k e : Nat} (h1 : k ≤ 20)
    (hlo : (e : ℝ) + 0.001 ≤ k * (19 / 33) + 2.25) (hhi : (k : ℝ) * (34 / 59) + 2.25 ≤ e + 0.999) :
    bfSegExp log (2 ^ k) = e := by
  obtain ⟨r1, r2, -, -⟩ := log_ratios
  have hl3 := log_333
  have hk32 : 2 ^ k < 2 ^ 32 := Nat.pow_lt_pow_right (by omega) (by omega)
  obtain ⟨a, b⟩ := bfSegExp_accurate hlog (n := 2 ^ k) Nat.one_le_two_pow hk32
  have hk0 : (0 : ℝ) ≤ k := Nat.cast_nonneg k
  unfold idealExp at a b
  rw [log_two_pow] at a b
  have q1 : (k : ℝ) * (19 / 33) ≤ k * Real.log 2 / Real.log 3.33 := by
    rw [le_div_iff₀ (by linarith), mul_assoc]
    exact mul_le_mul_of_nonneg_left (by linarith) hk0
  have q2 : (k : ℝ) * Real.log 2 / Real.log 3.33 ≤ k * (34 / 59) := by
    rw [div_le_iff₀ (by linarith), mul_assoc]
    exact mul_le_mul_of_nonneg_left (by linarith) hk0
  have h36 : (1 : ℝ) / 2 ^ 36 ≤ 0.0005 := by norm_num
  have a' : (bfSegExp log (2 ^ k) : ℝ) < e + 1 := by linarith
  have b' : (e : ℝ) < bfSegExp log (2 ^ k) + 1 := by linarith
  have a'' : bfSegExp log (2 ^ k) < e + 1 := by exact_mod_cast a'
  have b'' : e < bfSegExp log (2 ^ k) + 1 := by exact_mod_cast b'
  omega

/-- The capacity of `2^k` keys lies between two bounds, when rounding errors cannot matter. -/
theorem cap0_two_pow {log : ℚ → ℚ} (hlog : LogAccurate log) {k A B : Nat} (h1 : 1 ≤ k) (h20 : k ≤ 20)
    (hlo : (A : ℝ) + 0.51 ≤ 2 ^ k * max 1.125 (0.875 + 0.25 * (298 / 15) / (k : ℝ)) + 1)
    (hhi : (2 : ℝ) ^ k * max 1.125 (0.875 + 0.25 * (299 / 15) / (k : ℝ)) + 0.51 ≤ B + 1) :
    A ≤ bfCap0 log (2 ^ k) ∧ bfCap0 log (2 ^ k) ≤ B := by
  obtain ⟨-, -, r3, r4⟩ := log_ratios
  have hk32 : 2 ^ k < 2 ^ 32 := Nat.pow_lt_pow_right (by omega) (by omega)
  have hk0 : (0 : ℝ) < k := by exact_mod_cast h1
  have hl2 : 0 < Real.log 2 := Real.log_pos (by norm_num)
  have hb : idealCap (2 ^ k) ≤ 2 ^ 32 - 2 := by
    refine (idealCap_bound (n := 2 ^ k) ?_ ?_).trans (by norm_num)
    · calc 2 = 2 ^ 1 := rfl
        _ ≤ 2 ^ k := Nat.pow_le_pow_right (by omega) h1
    · calc 2 ^ k ≤ 2 ^ 20 := Nat.pow_le_pow_right (by omega) h20
        _ ≤ 3800000000 := by norm_num
  have hc := bfCap0_accurate hlog (n := 2 ^ k) (by
    calc 2 = 2 ^ 1 := rfl
      _ ≤ 2 ^ k := Nat.pow_le_pow_right (by omega) h1) hk32 hb
  rw [abs_le] at hc
  obtain ⟨a, b⟩ := hc
  unfold idealCap at a b
  rw [log_two_pow] at a b
  have q1 : 0.25 * (298 / 15) / (k : ℝ) ≤ 0.25 * Real.log 1000000 / (k * Real.log 2) := by
    rw [div_le_div_iff₀ hk0 (by positivity)]
    nlinarith
  have q2 : 0.25 * Real.log 1000000 / (k * Real.log 2) ≤ 0.25 * (299 / 15) / (k : ℝ) := by
    rw [div_le_div_iff₀ (by positivity) hk0]
    nlinarith
  have hp : (0 : ℝ) < 2 ^ k := by positivity
  push_cast at a b
  have m1 : (2 : ℝ) ^ k * max 1.125 (0.875 + 0.25 * (298 / 15) / (k : ℝ)) ≤
      2 ^ k * max 1.125 (0.875 + 0.25 * Real.log 1000000 / (k * Real.log 2)) := by gcongr
  have m2 : (2 : ℝ) ^ k * max 1.125 (0.875 + 0.25 * Real.log 1000000 / (k * Real.log 2)) ≤
      2 ^ k * max 1.125 (0.875 + 0.25 * (299 / 15) / (k : ℝ)) := by gcongr
  have a' : (A : ℝ) < bfCap0 log (2 ^ k) + 1 := by linarith
  have b' : (bfCap0 log (2 ^ k) : ℝ) < B + 1 := by linarith
  have a'' : A < bfCap0 log (2 ^ k) + 1 := by exact_mod_cast a'
  have b'' : bfCap0 log (2 ^ k) < B + 1 := by exact_mod_cast b'
  omega

/-- The layout for a segment length of `2^e` and a capacity in the last of `c + 2` segments. -/
theorem layout_of {size e cap c : Nat} (hs : 1 < size) (he : e ≤ 18) (hc : 1 ≤ c) (h1 : (c + 1) * 2 ^ e + 1 ≤ cap)
    (h2 : cap ≤ (c + 2) * 2 ^ e) (hbig : (c + 3) * 2 ^ e < 2 ^ 32) :
    bfLayout size e cap = .ok ⟨⟨BitVec.ofNat 32 (2 ^ e), BitVec.ofNat 32 (2 ^ e - 1), BitVec.ofNat 32 (c * 2 ^ e)⟩,
      (c + 2) * 2 ^ e, c⟩ := by
  have hsl : segmentLength size e = 2 ^ e := by
    unfold segmentLength
    rw [if_neg (by omega)]
    exact min_eq_left (by
      calc 2 ^ e ≤ 2 ^ 18 := Nat.pow_le_pow_right (by omega) he
        _ = 262144 := rfl)
  have hL : 0 < 2 ^ e := by positivity
  unfold bfLayout
  simp only [hsl, gt_iff_lt, if_pos hs]
  generalize 2 ^ e = L at *
  have e1 : (c + 1) * L = c * L + L := by ring
  have e2 : (c + 2) * L = c * L + 2 * L := by ring
  have e3 : (c + 3) * L = c * L + 3 * L := by ring
  have d1 : (cap + L - 1) / L = c + 2 := by
    rw [Nat.div_eq_iff hL]
    constructor <;> omega
  have d2 : ((c + 2) * L + L - 1) / L = c + 2 := by
    rw [Nat.div_eq_iff hL]
    constructor <;> omega
  rw [d1, d2, if_neg (show ¬ c + 2 < 3 by omega), if_neg (by
    have : (c + 2 - (3 - 1) + 3 - 1) * L = (c + 2) * L := by rw [show c + 2 - (3 - 1) + 3 - 1 = c + 2 by omega]
    omega)]
  have : c + 2 - (3 - 1) = c := by omega
  rw [this, show c + 3 - 1 = c + 2 by omega]

theorem layout_two_pow {log : ℚ → ℚ} (hlog : LogAccurate log) (k e c : Nat) (h1 : 1 ≤ k) (h20 : k ≤ 20) (he : e ≤ 18)
    (hc : 1 ≤ c) (a1 : (e : ℝ) + 0.001 ≤ k * (19 / 33) + 2.25) (a2 : (k : ℝ) * (34 / 59) + 2.25 ≤ e + 0.999)
    (a3 : (((c + 1) * 2 ^ e + 1 : ℕ) : ℝ) + 0.51 ≤ 2 ^ k * max 1.125 (0.875 + 0.25 * (298 / 15) / (k : ℝ)) + 1)
    (a4 : (2 : ℝ) ^ k * max 1.125 (0.875 + 0.25 * (299 / 15) / (k : ℝ)) + 0.51 ≤ (((c + 2) * 2 ^ e : ℕ) : ℝ) + 1)
    (hbig : (c + 3) * 2 ^ e < 2 ^ 32) :
    bfLayout (2 ^ k) (bfSegExp log (2 ^ k)) (bfCap0 log (2 ^ k)) =
      .ok ⟨⟨BitVec.ofNat 32 (2 ^ e), BitVec.ofNat 32 (2 ^ e - 1), BitVec.ofNat 32 (c * 2 ^ e)⟩, (c + 2) * 2 ^ e, c⟩ := by
  rw [segExp_two_pow hlog h20 a1 a2]
  obtain ⟨c1, c2⟩ := cap0_two_pow hlog h1 h20 a3 a4
  refine layout_of ?_ he hc c1 c2 hbig
  calc 1 < 2 ^ 1 := by norm_num
    _ ≤ 2 ^ k := Nat.pow_le_pow_right (by omega) h1

/-- **C107 (layouts).** The layout of the filters of all database sizes of the Makefile's benchmark targets, whatever accurate
logarithm routine is used: `(log2 of the number of keys, log2 of the segment length, segments)`. -/
theorem C107_layouts (log : ℚ → ℚ) (hlog : LogAccurate log) (k e c : Nat)
    (hset : (k, e, c) ∈ [(14, 10, 18), (16, 11, 36), (17, 12, 36), (18, 12, 72), (19, 13, 71), (20, 13, 142)]) :
    bfLayout (2 ^ k) (bfSegExp log (2 ^ k)) (bfCap0 log (2 ^ k)) =
      .ok ⟨⟨BitVec.ofNat 32 (2 ^ e), BitVec.ofNat 32 (2 ^ e - 1), BitVec.ofNat 32 (c * 2 ^ e)⟩, (c + 2) * 2 ^ e, c⟩ := by
  have key := layout_two_pow hlog
  simp only [List.mem_cons, List.not_mem_nil, or_false, Prod.mk.injEq] at hset
  rcases hset with ⟨rfl, rfl, rfl⟩ | ⟨rfl, rfl, rfl⟩ | ⟨rfl, rfl, rfl⟩ | ⟨rfl, rfl, rfl⟩ | ⟨rfl, rfl, rfl⟩ | ⟨rfl, rfl, rfl⟩
  · exact key 14 10 18 (by norm_num) (by norm_num) (by norm_num) (by norm_num) (by norm_num) (by norm_num)
      (by rw [max_eq_right (by norm_num)]; norm_num) (by rw [max_eq_right (by norm_num)]; norm_num) (by norm_num)
  · exact key 16 11 36 (by norm_num) (by norm_num) (by norm_num) (by norm_num) (by norm_num) (by norm_num)
      (by rw [max_eq_right (by norm_num)]; norm_num) (by rw [max_eq_right (by norm_num)]; norm_num) (by norm_num)
  · exact key 17 12 36 (by norm_num) (by norm_num) (by norm_num) (by norm_num) (by norm_num) (by norm_num)
      (by rw [max_eq_right (by norm_num)]; norm_num) (by rw [max_eq_right (by norm_num)]; norm_num) (by norm_num)
  · exact key 18 12 72 (by norm_num) (by norm_num) (by norm_num) (by norm_num) (by norm_num) (by norm_num)
      (by rw [max_eq_right (by norm_num)]; norm_num) (by rw [max_eq_right (by norm_num)]; norm_num) (by norm_num)
  · exact key 19 13 71 (by norm_num) (by norm_num) (by norm_num) (by norm_num) (by norm_num) (by norm_num)
      (by rw [max_eq_right (by norm_num)]; norm_num) (by rw [max_eq_right (by norm_num)]; norm_num) (by norm_num)
  · exact key 20 13 142 (by norm_num) (by norm_num) (by norm_num) (by norm_num) (by norm_num) (by norm_num)
      (by rw [max_eq_left (by norm_num)]; norm_num) (by rw [max_eq_left (by norm_num)]; norm_num) (by norm_num)

/-- **C107 (printed sizes).** Every key-value shard of `2^16` pairs with 8192-bit values and 10-bit digits has the sizes the README
prints: segment length 2048, mask 2047, segment count length 73728, matrix height 77824, 820 columns. So every keyword query has
77824 words and every response 820 words. (That a shard of this size is built depends on the hash values of its keys; the README shows a run in
which it was. The sizes themselves, `C107_layouts`, have no such hypothesis.) -/
theorem C107_readme (log : ℚ → ℚ) (hlog : LogAccurate log) (prof : Profile) (prg : Prg) (pseed : List U8)
    (fp0 : Nat → Nat → U32) (filterSeed : List U8) (kvs : List KeyValue) (n m : Nat) (shard : KVShard)
    (hlen : kvs.length = 2 ^ 16)
    (hsh : KVShard.new prof prg pseed (bfSegExp log kvs.length) (bfCap0 log kvs.length) fp0 filterSeed kvs n m 8192 10
      = .ok shard) :
    shard.baseParams.filterParams = ⟨filterSeed, ⟨2048#32, 2047#32, 73728#32⟩⟩ ∧
    shard.db.getMatrixHeight = .ok 77824 ∧ shard.baseParams.m = 77824 ∧ shard.baseParams.rhs.length = 820 ∧
    (∀ tape qp tape', generateKvQueryParams (commonParamsFrom prg shard.baseParams.publicSeed
        shard.baseParams.dim shard.baseParams.m) shard.baseParams tape = .ok (qp, tape') →
      ∀ key q, (qp.generateKvQuery prof key).2 = .ok q → q.length = 77824) ∧
    ∀ q bytes, shard.respond q = .ok bytes → bytes.length = 8 + 4 * 820 := by
  have hl := C107_layouts log hlog 16 11 36 (by simp)
  obtain ⟨⟨lay, hlay, hm⟩, h2, -, h4, h5⟩ := C71_kv_sizes prof prg pseed _ _ fp0 filterSeed kvs n m 8192 10 shard
    (by omega) (by omega) hsh
  rw [hlen, hl] at hlay
  simp only [Res.ok.injEq] at hlay
  have hm' : shard.baseParams.m = 77824 := by rw [hm, ← hlay]; rfl
  have hw : width 8192 10 = 820 := by decide
  rw [hm'] at h4
  rw [hw] at h2 h5
  obtain ⟨lay', hlay', hm2, -, -, he, hcl, -, -, -, hfp, -⟩ := kvShard_shape hsh
  rw [hlen, hl] at hlay'
  simp only [Res.ok.injEq] at hlay'
  refine ⟨?_, ?_, hm', h2, ?_, h5⟩
  · rw [hfp, ← hlay']
    rfl
  · unfold KVDatabase.getMatrixHeight
    rw [rd_ok he, Res.bind_ok, hcl _ (List.getElem_mem he), ← hm2, hm']
  · rw [hm']; exact h4

/-- **C107 (overhead).** A keyword query is more than 1.08 times as long as an index query to a database of as many records, for
every number of records (up to 3.8 billion); the server multiplies correspondingly more. -/
theorem C107_overhead (log : ℚ → ℚ) (hlog : LogAccurate log) (prof : Profile) (prg : Prg) (pseed : List U8)
    (fp0 : Nat → Nat → U32) (filterSeed : List U8) (kvs : List KeyValue) (n m T b : Nat) (shard : KVShard)
    (hb1 : 1 ≤ b) (hb : b ≤ 31) (hn : kvs.length ≤ 3800000000)
    (hsh : KVShard.new prof prg pseed (bfSegExp log kvs.length) (bfCap0 log kvs.length) fp0 filterSeed kvs n m T b
      = .ok shard) (seed' : List U8) (strs : List (List Char)) (n' T' b' : Nat) (hb' : b' ≤ 31) (ishard : Shard)
    (hi : Shard.fromBase64Strings prof prg seed' strs n' kvs.length T' b' = .ok ishard)
    (tape tape1 : List U32) (qp : QueryParams FilterParams)
    (hqp : generateKvQueryParams (commonParamsFrom prg shard.baseParams.publicSeed
      shard.baseParams.dim shard.baseParams.m) shard.baseParams tape = .ok (qp, tape1))
    (tape' tape1' : List U32) (qp' : QueryParams Unit)
    (hqp' : generateIndexQueryParams (commonParamsFrom prg ishard.baseParams.publicSeed
      ishard.baseParams.dim ishard.baseParams.m) ishard.baseParams tape' = .ok (qp', tape1')) :
    ∀ key q i q', (qp.generateKvQuery prof key).2 = .ok q → (qp'.generateIndexQuery prof i).2 = .ok q' →
      108 * q'.length < 100 * q.length := by
  intro key q i q' hq hq'
  obtain ⟨⟨lay, hlay, hm⟩, -, -, h4, -⟩ := C71_kv_sizes prof prg pseed _ _ fp0 filterSeed kvs n m T b shard hb1 hb hsh
  obtain ⟨-, -, h5, -⟩ := C71_index_sizes prof prg seed' strs n' kvs.length T' b' ishard hb' hi
  rw [h4 _ _ _ hqp _ _ hq, h5 _ _ _ hqp' _ _ hq', hm]
  rcases Nat.lt_or_ge 1 kvs.length with h2 | h1
  · obtain ⟨lay', e, hlay', -, -, -, -, h9, hlt, -, -⟩ := C76_layout log hlog kvs.length h2 hn
    rw [hlay] at hlay'
    cases hlay'
    omega
  · obtain ⟨lay', hlay', h12⟩ := C76_tiny log hlog kvs.length h1
    rw [hlay] at hlay'
    cases hlay'
    omega

/-! ### The hypotheses can be met -/

/-- `C107_layouts`: an accurate logarithm exists, and the layout of `2^16` keys is the printed one. -/
example : ∃ log, LogAccurate log ∧ bfLayout (2 ^ 16) (bfSegExp log (2 ^ 16)) (bfCap0 log (2 ^ 16)) =
    .ok ⟨⟨2048#32, 2047#32, 73728#32⟩, 77824, 36⟩ := by
  obtain ⟨log, hlog⟩ := exists_logAccurate
  exact ⟨log, hlog, C107_layouts log hlog 16 11 36 (by simp)⟩

/-- `C107_overhead`: two shards of three records, with sampled client parameters. -/
example : ∃ log shard ishard qp tape1 qp' tape1', LogAccurate log ∧ wKvs.length ≤ 3800000000 ∧
    KVShard.new .debug wPrg [7#8] (bfSegExp log wKvs.length) (bfCap0 log wKvs.length) wFp0 exSeed wKvs 2 99 16 9 = .ok shard ∧
    Shard.fromBase64Strings .debug wPrg [] (wElems.map b64Encode) 2 wKvs.length 16 5 = .ok ishard ∧
    generateKvQueryParams (commonParamsFrom wPrg shard.baseParams.publicSeed
      shard.baseParams.dim shard.baseParams.m) shard.baseParams kvExTape = .ok (qp, tape1) ∧
    generateIndexQueryParams (commonParamsFrom wPrg ishard.baseParams.publicSeed
      ishard.baseParams.dim ishard.baseParams.m) ishard.baseParams wTape = .ok (qp', tape1') := by
  obtain ⟨log, hlog⟩ := exists_logAccurate
  obtain ⟨shard, qp, tape1, h, hq, _⟩ := wKv
  obtain ⟨ishard, qp', tape1', h', hq', _⟩ := wIndex
  obtain ⟨e1, e2⟩ := three_sizes hlog
  exact ⟨log, shard, ishard, qp, tape1, qp', tape1', hlog, by decide,
    by rw [show wKvs.length = 3 from rfl, e1, e2]; exact h, h', hq, hq'⟩

end Chalamet
