import Verif.Props.FailureRate
import Verif.Props.Query
import Verif.Props.Server
import Verif.Props.KvServer

/-!
# C92: which databases are free of decryption errors

C03 bounds the noise by the worst database. Here the criterion is the database at hand: an exchange can return a wrong row
exactly when some column of digits sums up to `2^(31-b)` or more (for index databases up to the case of equality).
-/

namespace Chalamet

open Spec

/-- The integer sum of a column of words. -/
def Spec.colSum (col : List U32) : Nat := (col.map BitVec.toNat).sum

/-- An element of maximal digits: `T` bits (rounded up to bytes), all ones. -/
def Spec.onesElem (T : Nat) : List U8 := List.replicate ((T + 7) / 8) 0xFF#8

/-! ## Noise and column sums -/

theorem dot_zeros (k : Nat) (l : List U32) : dot (List.replicate k 0#32) l = 0#32 := by
  induction k generalizing l with
  | zero => cases l <;> rfl
  | succ k ih =>
    cases l with
    | nil => rfl
    | cons a l => rw [List.replicate_succ, dot, ih]; simp

/-- Signed sums are bounded by the column sum. -/
theorem dot_ternary_colSum {e c : List U32} (he : ∀ x ∈ e, IsTernary x) :
    ∃ z : Int, dot e c = BitVec.ofInt 32 z ∧ -(colSum c : Int) ≤ z ∧ z ≤ (colSum c : Int) := by
  induction e generalizing c with
  | nil => exact ⟨0, by simp [dot], by omega, by omega⟩
  | cons x xs ih =>
    cases c with
    | nil => exact ⟨0, by simp [dot], by omega, by omega⟩
    | cons y ys =>
      obtain ⟨z, h1, h2, h3⟩ := ih (c := ys) (fun a ha => he a (by simp [ha]))
      have hs : colSum (y :: ys) = y.toNat + colSum ys := rfl
      rw [hs]
      rcases he x (by simp) with rfl | rfl | rfl
      · exact ⟨z, by simp [dot, h1], by omega, by omega⟩
      · refine ⟨(y.toNat : Int) + z, ?_, by omega, by omega⟩
        rw [dot, h1, BitVec.ofInt_add, BitVec.one_mul]
        simp
      · refine ⟨-(y.toNat : Int) + z, ?_, by omega, by omega⟩
        rw [dot, h1, BitVec.ofInt_add, BitVec.ofInt_neg]
        have : BitVec.allOnes 32 * y = -y := by
          rw [← BitVec.neg_one_eq_allOnes, BitVec.neg_mul, BitVec.one_mul]
        rw [this]; simp

theorem inWindow_of_colSum {e c : List U32} {b : Nat} (hb1 : 1 ≤ b) (he : ∀ x ∈ e, IsTernary x)
    (h : colSum c < 2 ^ (31 - b)) : InWindow b (dot e c) := by
  obtain ⟨z, h1, h2, h3⟩ := dot_ternary_colSum (c := c) he
  have hp : (2 : Nat) ^ (31 - b) ≤ 2 ^ 30 := Nat.pow_le_pow_right (by omega) (by omega)
  have hz : ((2 : Int) ^ (31 - b)) = ((2 ^ (31 - b) : Nat) : Int) := by norm_cast
  unfold InWindow
  rw [h1, signed_ofInt (by omega) (by omega), hz]
  omega

/-- The error vector `x, …, x, 0, …, 0` against a column. -/
theorem dot_prefix (x : U32) (k : Nat) (c : List U32) (hk : k ≤ c.length) :
    dot (List.replicate k x ++ List.replicate (c.length - k) 0#32) c = x * BitVec.ofNat 32 (colSum (c.take k)) := by
  induction k generalizing c with
  | zero => simp [dot_zeros, colSum]
  | succ k ih =>
    cases c with
    | nil => simp at hk
    | cons y ys =>
      have := ih ys (by simpa using hk)
      rw [List.length_cons, Nat.add_sub_add_right, List.replicate_succ, List.cons_append, dot, this, List.take_succ_cons,
        show colSum (y :: ys.take k) = y.toNat + colSum (ys.take k) from rfl, BitVec.ofNat_add, BitVec.mul_add]
      simp

/-- Some prefix sum is at least `H` and exceeds it by less than one entry. -/
theorem exists_prefix {c : List U32} {M H : Nat} (hc : ∀ y ∈ c, y.toNat ≤ M) (h : H ≤ colSum c) (hH : 0 < H) :
    ∃ k ≤ c.length, H ≤ colSum (c.take k) ∧ colSum (c.take k) + 1 ≤ H + M := by
  induction c generalizing H with
  | nil => simp [colSum] at h; omega
  | cons y ys ih =>
    have hs : colSum (y :: ys) = y.toNat + colSum ys := rfl
    have hy := hc y (by simp)
    by_cases h1 : H ≤ y.toNat
    · refine ⟨1, by simp, ?_, ?_⟩ <;> simp [colSum] <;> omega
    · obtain ⟨k, hk, h2, h3⟩ := ih (H := H - y.toNat) (fun z hz => hc z (by simp [hz])) (by omega) (by omega)
      refine ⟨k + 1, by simpa using hk, ?_, ?_⟩ <;>
      · have : colSum ((y :: ys).take (k + 1)) = y.toNat + colSum (ys.take k) := rfl
        omega

theorem half_facts {b : Nat} (hb1 : 1 ≤ b) (hb : b ≤ 31) :
    0 < 2 ^ (31 - b) ∧ 2 ^ (31 - b) + (2 ^ b - 1) ≤ 2 ^ 31 := by
  have h1 : 2 ^ (31 - b) * 2 ^ b = 2 ^ 31 := by rw [← Nat.pow_add]; congr 1; omega
  have hp : 2 ≤ 2 ^ b := by
    calc 2 = 2 ^ 1 := rfl
      _ ≤ 2 ^ b := Nat.pow_le_pow_right (by omega) hb1
  have hH1 : 1 ≤ 2 ^ (31 - b) := Nat.two_pow_pos _
  generalize 2 ^ (31 - b) = H at *
  refine ⟨hH1, ?_⟩
  generalize 2 ^ b = P at *
  obtain ⟨x, rfl⟩ : ∃ x, P = x + 1 := ⟨P - 1, by omega⟩
  simp only [Nat.add_sub_cancel]
  nlinarith

/-- A column sum of `D/2` or more: errors `-1` on a prefix leave the window. -/
theorem exists_bad_neg {b : Nat} {c : List U32} (hb1 : 1 ≤ b) (hb : b ≤ 31) (hc : ∀ y ∈ c, y.toNat < 2 ^ b)
    (h : 2 ^ (31 - b) ≤ colSum c) :
    ∃ k ≤ c.length, ¬ InWindow b
      (dot (List.replicate k (BitVec.allOnes 32) ++ List.replicate (c.length - k) 0#32) c) := by
  obtain ⟨h0, h1⟩ := half_facts hb1 hb
  obtain ⟨k, hk, h2, h3⟩ := exists_prefix (M := 2 ^ b - 1) (fun y hy => by have := hc y hy; omega) h h0
  refine ⟨k, hk, ?_⟩
  rw [dot_prefix _ _ _ hk]
  generalize colSum (c.take k) = y at *
  have e : BitVec.allOnes 32 * BitVec.ofNat 32 y = BitVec.ofInt 32 (-(y : Int)) := by
    rw [← BitVec.neg_one_eq_allOnes, BitVec.neg_mul, BitVec.one_mul, BitVec.ofInt_neg, BitVec.ofInt_natCast]
  rw [e]
  unfold InWindow
  rw [signed_ofInt (by omega) (by omega), show (2 : Int) ^ (31 - b) = ((2 ^ (31 - b) : Nat) : Int) by norm_cast]
  omega

/-- A column sum above `D/2`: errors `+1` on a prefix leave the window. -/
theorem exists_bad_pos {b : Nat} {c : List U32} (hb1 : 1 ≤ b) (hb : b ≤ 31) (hc : ∀ y ∈ c, y.toNat < 2 ^ b)
    (h : 2 ^ (31 - b) < colSum c) :
    ∃ k ≤ c.length, ¬ InWindow b (dot (List.replicate k 1#32 ++ List.replicate (c.length - k) 0#32) c) := by
  obtain ⟨h0, h1⟩ := half_facts hb1 hb
  obtain ⟨k, hk, h2, h3⟩ := exists_prefix (M := 2 ^ b - 1) (H := 2 ^ (31 - b) + 1)
    (fun y hy => by have := hc y hy; omega) h (by omega)
  refine ⟨k, hk, ?_⟩
  rw [dot_prefix _ _ _ hk]
  generalize colSum (c.take k) = y at *
  rw [BitVec.one_mul]
  unfold InWindow signed
  rw [show (2 : Int) ^ (31 - b) = ((2 ^ (31 - b) : Nat) : Int) by norm_cast, BitVec.toInt_eq_toNat_cond, BitVec.toNat_ofNat,
    Nat.mod_eq_of_lt (by omega)]
  split <;> omega

/-! ## The client's random words -/

/-- Words that make the sampler return an all-zero secret and then `k` times the same error. -/
theorem sampler_prefix (n m k : Nat) (hk : k ≤ m) (v x : U32) (hv : v.toNat ≤ ternaryRejectionSamplingMax)
    (hx : ternaryOf v = x) :
    randomTernaryVector n (List.replicate n 0#32 ++ (List.replicate k v ++ List.replicate (m - k) 0#32)) =
      .ok (List.replicate n 0#32, List.replicate k v ++ List.replicate (m - k) 0#32) ∧
    randomTernaryVector m (List.replicate k v ++ List.replicate (m - k) 0#32) =
      .ok (List.replicate k x ++ List.replicate (m - k) 0#32, []) := by
  have t0 : ternaryOf 0#32 = 0#32 := by decide +kernel
  constructor
  · have := randomTernaryVector_accepted (List.replicate n 0#32) (by
      intro x hx; rw [(List.mem_replicate.1 hx).2]; simp)
    rw [List.length_replicate, List.map_replicate, t0] at this
    simpa using randomTernaryVector_append (r := List.replicate k v ++ List.replicate (m - k) 0#32) this
  · have := randomTernaryVector_accepted (List.replicate k v ++ List.replicate (m - k) 0#32) (by
      intro x hx
      rw [List.mem_append, List.mem_replicate, List.mem_replicate] at hx
      rcases hx with ⟨_, rfl⟩ | ⟨_, rfl⟩
      · exact hv
      · simp)
    rw [show (List.replicate k v ++ List.replicate (m - k) 0#32).length = m by simp; omega] at this
    rw [this]
    simp [t0, hx]

/-! ## Index databases -/

/-- **C92 (index, sufficient).** If every column of digits sums up to less than `2^(31-b)`, no exchange with that database can
return a wrong row, whatever the random words, index and build. -/
theorem C92_index_safe (prof : Profile) (prg : Prg) (seed : List U8) (strs : List (List Char))
    (elems : List (List U8)) (n m T b : Nat) (hb1 : 1 ≤ b) (hb : b ≤ 31) (hT : T < 2 ^ 64) (hm0 : 0 < m)
    (hm : m ≤ elems.length) (hdec : strs.map b64Decode = elems.map Res.ok) (hlen : ∀ e ∈ elems.take m, T ≤ 8 * e.length)
    (hsum : ∀ j < width T b, colSum (column b j (elems.take m)) < 2 ^ (31 - b)) :
    ∃ shard, Shard.fromBase64Strings prof prg seed strs n m T b = .ok shard ∧
      ∀ tape i row, indexExchange prof prg shard i tape = .ok row →
        ∃ hi : i < m, row = rowOf b (width T b) elems[i] := by
  obtain ⟨shard, h1, h2⟩ := C01_index_pir prof prg seed strs elems n m T b hb1 hb hT hm0 hm hdec hlen
  refine ⟨shard, h1, ?_⟩
  intro tape i row hex
  unfold indexExchange at hex
  obtain ⟨⟨qp, tape'⟩, hgen, hex⟩ := Res.bind_eq_ok.1 hex
  obtain ⟨s', t1, e, hs', he, hall⟩ := h2 _ _ _ hgen
  simp only at hex
  obtain ⟨q, hq, hex⟩ := Res.bind_eq_ok.1 hex
  obtain ⟨bytes, hby, hex⟩ := Res.bind_eq_ok.1 hex
  obtain ⟨resp, hre, hex⟩ := Res.bind_eq_ok.1 hex
  obtain ⟨hi', bytes', resp', row', hby', hre', hp', _, _, hiff⟩ :=
    hall i (qp.generateIndexQuery prof i).1 q (Prod.ext rfl hq)
  rw [hby] at hby'
  cases hby'
  rw [hre] at hre'
  cases hre'
  rw [hex] at hp'
  cases hp'
  exact ⟨hi', hiff.2 fun j hj => inWindow_of_colSum hb1 (randomTernaryVector_spec he).2 (hsum j hj)⟩

/-- **C92 (index, necessary).** If some column of digits sums up to more than `2^(31-b)`, there are `n + m` random words for
which every exchange completes normally and returns a row whose digit in that column is wrong. -/
theorem C92_index_unsafe (prof : Profile) (prg : Prg) (seed : List U8) (strs : List (List Char))
    (elems : List (List U8)) (n m T b : Nat) (hb1 : 1 ≤ b) (hb : b ≤ 31) (hT : T < 2 ^ 64) (hm0 : 0 < m)
    (hm : m ≤ elems.length) (hdec : strs.map b64Decode = elems.map Res.ok) (hlen : ∀ e ∈ elems.take m, T ≤ 8 * e.length)
    (j : Nat) (hj : j < width T b) (hsum : 2 ^ (31 - b) < colSum (column b j (elems.take m))) :
    ∃ shard, Shard.fromBase64Strings prof prg seed strs n m T b = .ok shard ∧
      ∃ tape : List U32, tape.length = n + m ∧ ∀ i (hi : i < m), ∃ row, indexExchange prof prg shard i tape = .ok row ∧
        row.length = width T b ∧ row[j]? ≠ some (BitVec.ofNat 32 (digit b (leNat elems[i]) j)) := by
  have hcl : (column b j (elems.take m)).length = m := by simp [column]; omega
  obtain ⟨k, hk, hbad⟩ := exists_bad_pos hb1 hb (column_lt (by omega) _) hsum
  rw [hcl] at hk hbad
  obtain ⟨shard, hsh, hall⟩ := C01_index_pir prof prg seed _ elems n m T b hb1 hb hT hm0 hm hdec hlen
  have hshe : shard = shardOf prg seed elems n m T b := by
    have := shard_ok (prof := prof) (prg := prg) (seed := seed) (n := n) hdec hb1 (by omega) hm0 hm
      (fun e he => le_trans (width_mul_le (T := T) (by omega)) (hlen e he))
    rw [hsh] at this
    exact Res.ok.inj this
  refine ⟨shard, hsh, ?_⟩
  obtain ⟨hs, hev⟩ := sampler_prefix n m k hk 1431655765#32 1#32 (by decide +kernel) (by decide +kernel)
  set e := List.replicate k 1#32 ++ List.replicate (m - k) 0#32 with he
  set et := List.replicate k 1431655765#32 ++ List.replicate (m - k) 0#32 with het
  have hA := generateLwe_rect prg seed n m
  obtain ⟨qp, hgen, hl1, hl2, hu, hlhs, _⟩ := (C25_dimension_check (commonParamsFrom prg seed n m) shard.baseParams
    (List.replicate n 0#32 ++ et) et [] (List.replicate n 0#32) e (by rw [hshe]; exact hs)
    (by rw [commonParamsFrom, hA.1]; exact hev)).2 (by
      intro c hc
      rw [hshe] at hc ⊢
      rcases List.mem_append.1 hc with hc | hc
      · exact hA.2 c hc
      · simp only [shardOf, rhsOf, List.mem_map] at hc
        obtain ⟨j, _, rfl⟩ := hc
        simp [shardOf])
  refine ⟨List.replicate n 0#32 ++ et, by simp [het]; omega, ?_⟩
  intro i hi
  have hbits : qp.plaintextBits = b := by
    obtain ⟨_, _, _, _, _, hq⟩ := genParams_spec (rhs := shard.baseParams.rhs) (n := n) (by rw [hshe]; rfl) rfl hgen
    rw [hq, hshe]; rfl
  have hlhs' : qp.lhs = e := by
    rw [hlhs]
    apply List.ext_getElem
    · simp [vadd, commonParamsFrom, hA.1, he]; omega
    · intro j h1 h2
      simp [vadd, dot_zeros]
  have hil : i < qp.lhs.length := by rw [hlhs', he]; simp; omega
  have hei : (qp.lhs[i]).toNat ≤ 1 := by
    have : qp.lhs[i] ∈ e := by rw [← hlhs']; exact List.getElem_mem _
    rw [he, List.mem_append, List.mem_replicate, List.mem_replicate] at this
    rcases this with ⟨_, h⟩ | ⟨_, h⟩ <;> rw [h] <;> decide
  have hquery := (C06_index_query_outcome prof qp i (by omega) (by omega) hu hil).2.1 (by
    have : 2 ^ (32 - qp.plaintextBits) ≤ 2 ^ 31 := Nat.pow_le_pow_right (by omega) (by omega)
    omega)
  have hgen' : generateIndexQueryParams (commonParamsFrom prg shard.baseParams.publicSeed shard.baseParams.dim
      shard.baseParams.m) shard.baseParams (List.replicate n 0#32 ++ et) = .ok (qp, []) := by
    rw [hshe] at hgen ⊢
    exact hgen
  obtain ⟨s', t', e', hs', he', hx⟩ := hall _ _ _ hgen'
  rw [hs] at hs'
  cases hs'
  rw [hev] at he'
  cases he'
  obtain ⟨hi', bytes, resp, row, hr1, hr2, hr3, hr4, hr5, hr6⟩ := hx i (qp.generateIndexQuery prof i).1 _ (Prod.ext rfl hquery)
  refine ⟨row, ?_, hr4, fun h0 => hbad ((hr5 j hj).1 h0)⟩
  unfold indexExchange
  rw [hgen']
  simp only [Res.bind_ok]
  rw [hquery, Res.bind_ok, hr1, Res.bind_ok, hr2, Res.bind_ok, hr3]

theorem leNat_ones (k : Nat) : leNat (List.replicate k 0xFF#8) = 2 ^ (8 * k) - 1 := by
  induction k with
  | zero => rfl
  | succ k ih =>
    rw [List.replicate_succ, leNat, ih, Nat.mul_succ, Nat.pow_add]
    have := Nat.two_pow_pos (8 * k)
    simp
    omega

theorem digit_zero_ones {b T : Nat} (h : b ≤ T) : digit b (leNat (onesElem T)) 0 = 2 ^ b - 1 := by
  unfold onesElem digit
  rw [leNat_ones]
  simp only [Nat.mul_zero, Nat.pow_zero, Nat.div_one]
  obtain ⟨c, hc⟩ : ∃ c, 8 * ((T + 7) / 8) = b + c := ⟨8 * ((T + 7) / 8) - b, by omega⟩
  rw [hc, Nat.pow_add]
  have h1 := Nat.two_pow_pos b
  obtain ⟨d, hd⟩ : ∃ d, 2 ^ c = d + 1 := ⟨2 ^ c - 1, by have := Nat.two_pow_pos c; omega⟩
  rw [hd, Nat.mul_succ, Nat.add_sub_assoc h1, Nat.mul_add_mod]
  exact Nat.mod_eq_of_lt (by omega)

/-- **C92 (index, C03 is sharp).** When `m * (2^b - 1)` exceeds `2^(31-b)`, the server built from `m` elements of `T ≥ b`
one-bits and some random words make every exchange complete normally and return a row whose first digit is wrong. -/
theorem C92_bound_is_sharp (prof : Profile) (prg : Prg) (seed : List U8) (n m T b : Nat) (hb1 : 1 ≤ b) (hb : b ≤ 31)
    (hbT : b ≤ T) (hT : T < 2 ^ 64) (h : 2 ^ (31 - b) < m * (2 ^ b - 1)) :
    ∃ shard, Shard.fromBase64Strings prof prg seed (List.replicate m (b64Encode (onesElem T))) n m T b = .ok shard ∧
      ∃ tape : List U32, tape.length = n + m ∧ ∀ i < m, ∃ row, indexExchange prof prg shard i tape = .ok row ∧
        row.length = width T b ∧ row[0]? ≠ some (BitVec.ofNat 32 (2 ^ b - 1)) := by
  have hm0 : 0 < m := by
    rcases Nat.eq_zero_or_pos m with rfl | h'
    · simp at h
    · exact h'
  obtain ⟨shard, h1, tape, h2, h3⟩ := C92_index_unsafe prof prg seed (List.replicate m (b64Encode (onesElem T)))
    (List.replicate m (onesElem T)) n m T b hb1 hb hT hm0 (by simp) (by simp [b64Decode_encode]) (by
      intro e he
      have := (List.mem_replicate.1 (List.mem_of_mem_take he)).2
      rw [this, onesElem, List.length_replicate]
      omega) 0 (by unfold width; exact Nat.div_pos (by omega) (by omega)) (by
      have hx : (2 ^ b - 1) % 4294967296 = 2 ^ b - 1 :=
        Nat.mod_eq_of_lt (by have : 2 ^ b ≤ 2 ^ 31 := Nat.pow_le_pow_right (by omega) hb; omega)
      simpa [column, colSum, digit_zero_ones hbT, hx] using h)
  refine ⟨shard, h1, tape, h2, ?_⟩
  intro i hi
  obtain ⟨row, a, b', c⟩ := h3 i hi
  refine ⟨row, a, b', ?_⟩
  rw [List.getElem_replicate, digit_zero_ones hbT] at c
  exact c

/-- **C92 (default parameters).** With the default sizes of the command line (2^16 records of 2^13 bits, 10 plaintext bits)
some database and random words give wrong rows: there is no guarantee of correctness, only a small failure rate (C56). -/
theorem C92_defaults (prof : Profile) (prg : Prg) (seed : List U8) (n : Nat) :
    ∃ strs shard, Shard.fromBase64Strings prof prg seed strs n (2 ^ 16) (2 ^ 13) 10 = .ok shard ∧
      ∃ tape : List U32, tape.length = n + 2 ^ 16 ∧ ∀ i < 2 ^ 16, ∃ row, indexExchange prof prg shard i tape = .ok row ∧
        row.length = 820 ∧ row[0]? ≠ some 1023#32 := by
  obtain ⟨shard, h1, tape, h2, h3⟩ := C92_bound_is_sharp prof prg seed n (2 ^ 16) (2 ^ 13) 10 (by omega) (by omega) (by norm_num)
    (by norm_num) (by norm_num)
  exact ⟨_, shard, h1, tape, h2, h3⟩

/-- Non-vacuity of C92 (index): three two-byte elements are safe with 5-bit digits (sums below 2^26); with 15-bit digits the
first column, 256 + 32767 + 13330, exactly exceeds 2^16 when each element is stored twice. -/
example : (∀ j < width 16 5, colSum (column 5 j [[0#8, 1#8], [255#8, 127#8], [0x12#8, 0x34#8]]) < 2 ^ (31 - 5)) ∧
    2 ^ (31 - 15) < colSum (column 15 0 [[0#8, 1#8], [255#8, 127#8], [0x12#8, 0x34#8], [0#8, 1#8], [255#8, 127#8],
      [0x12#8, 0x34#8]]) := by decide +kernel

/-! ## Key-value databases -/

/-- **C92 (key-value, exact).** Whether any random words can make the retrieval of a stored value go wrong is decided by the
columns of the built database alone: every exchange returns the stored value (modulo `2^b`) if and only if every column sums
up to less than `2^(31-b)`. -/
theorem C92_kv_exact (prof : Profile) (prg : Prg) (pseed : List U8) (segExp cap0 : Nat)
    (fp0 : Nat → Nat → U32) (filterSeed : List U8) (kvs : List KeyValue) (n m T b : Nat)
    (shard : KVShard) (hb1 : 1 ≤ b) (hb : b ≤ 31) (hT : T < 2 ^ 64)
    (hsh : KVShard.new prof prg pseed segExp cap0 fp0 filterSeed kvs n m T b = .ok shard)
    (hw : ∀ kv ∈ kvs, kv.value.length = width T b)
    (hload : prof = .debug ∨
      ∀ s, slotLoad filterSeed shard.db.filterParams.geom (kvs.map (·.key)) s < 64)
    (i : Nat) (hi : i < kvs.length)
    (hlast : ∀ k (hk : k < kvs.length), i < k →
      mix256 kvs[k].key filterSeed ≠ mix256 kvs[i].key filterSeed) :
    (∀ tape row, kvExchange prof prg shard kvs[i].key tape = .ok row →
      row = kvs[i].value.map fun v => BitVec.ofNat 32 (v.toNat % 2 ^ b)) ↔
    ∀ col ∈ shard.db.entries, colSum col < 2 ^ (31 - b) := by
  constructor
  · intro h col hc
    by_contra hbig
    push Not at hbig
    have hdb : KVDatabase.new prof segExp cap0 fp0 filterSeed kvs m T b = .ok shard.db := by
      have hsh := hsh
      unfold KVShard.new at hsh
      obtain ⟨db, hdb, hnew⟩ := Res.bind_eq_ok.1 hsh
      obtain ⟨bp, hbp, hnew⟩ := Res.bind_eq_ok.1 hnew
      cases hnew
      exact hdb
    obtain ⟨lay, hlay, hm, hps, hdim, hent, hcl, _⟩ := kvShard_shape hsh
    obtain ⟨_, _, _, _, _, hcol⟩ := C37_shared_geometry prof segExp cap0 fp0 filterSeed kvs m T b hb shard.db hdb
    obtain ⟨k, hk, hbad⟩ := exists_bad_neg hb1 hb (hcol col hc).2.1 hbig
    have hcl' : col.length = shard.baseParams.m := by rw [hm]; exact hcl col hc
    rw [hcl'] at hk hbad
    obtain ⟨hs, hev⟩ := sampler_prefix n shard.baseParams.m k hk 4294967292#32 (BitVec.allOnes 32) (by decide +kernel)
      (by decide +kernel)
    have hA := generateLwe_rect prg shard.baseParams.publicSeed shard.baseParams.dim shard.baseParams.m
    have hrhs := (C71_kv_sizes prof prg pseed segExp cap0 fp0 filterSeed kvs n m T b shard hb1 hb hsh).2.2.1
    obtain ⟨qp, hgen, _⟩ := (C25_dimension_check_kv (commonParamsFrom prg shard.baseParams.publicSeed
      shard.baseParams.dim shard.baseParams.m) shard.baseParams
      (List.replicate n 0#32 ++ (List.replicate k 4294967292#32 ++ List.replicate (shard.baseParams.m - k) 0#32))
      (List.replicate k 4294967292#32 ++ List.replicate (shard.baseParams.m - k) 0#32) [] (List.replicate n 0#32)
      (List.replicate k (BitVec.allOnes 32) ++ List.replicate (shard.baseParams.m - k) 0#32) (by rw [hdim]; exact hs)
      (by rw [commonParamsFrom, hA.1]; exact hev)).2 (by
        intro c hc
        rcases List.mem_append.1 hc with hc | hc
        · exact hA.2 c hc
        · rw [hdim]; exact hrhs c hc)
    obtain ⟨s', t', e', hs', he', _, hx⟩ := C04_kv_pir prof prg pseed segExp cap0 fp0 filterSeed kvs n m
      T b shard hb1 hb hT hsh hw hload _ _ _ hgen
    rw [hs] at hs'
    cases hs'
    rw [hev] at he'
    cases he'
    obtain ⟨qp', q, bytes, resp, row, h1, h2, h3, h4, _, _, h6⟩ := hx i hi hlast
    refine hbad (h6.1 (h (List.replicate n 0#32 ++ (List.replicate k 4294967292#32 ++
      List.replicate (shard.baseParams.m - k) 0#32)) _ ?_) col hc)
    unfold kvExchange
    rw [hgen]
    simp only [Res.bind_ok]
    rw [h1]
    simp only [Res.bind_ok]
    rw [h2, Res.bind_ok, h3, Res.bind_ok, h4]
  · intro h tape row hex
    unfold kvExchange at hex
    obtain ⟨⟨qp, tape'⟩, hgen, hex⟩ := Res.bind_eq_ok.1 hex
    obtain ⟨s', t1, e, hs', he, _, hall⟩ := C04_kv_pir prof prg pseed segExp cap0 fp0 filterSeed kvs n m
      T b shard hb1 hb hT hsh hw hload _ _ _ hgen
    obtain ⟨qp', q, bytes, resp, row', h1, h2, h3, h4, _, _, h6⟩ := hall i hi hlast
    simp only at hex
    rw [h1] at hex
    simp only [Res.bind_ok] at hex
    rw [h2, Res.bind_ok, h3, Res.bind_ok, h4] at hex
    cases hex
    exact h6.2 fun col hc => inWindow_of_colSum hb1 (randomTernaryVector_spec he).2 (h col hc)

end Chalamet
