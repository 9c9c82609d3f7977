import Verif.Lemmas.Noise
import Verif.Lemmas.Respond

/-!
# Index retrieval: C01, C02, C03

`width T b` is the number of base-`2^b` digits of a `T`-bit element, `digit b N j` is digit `j` of
`N`, `leNat` reads bytes as a little-endian integer, `column b j elems` lists digit `j` of every
element, `dot` is the inner product mod `2^32`, `InWindow b nu` says that `nu` as a signed number
lies in `(-D/2, D/2]` with `D = 2^(32-b)` (all in `Verif/Spec.lean`).
-/

namespace Chalamet
open Spec

/-- **C01.** Build a shard from strings that decode to `elems`; let a client expand the published
parameters, draw fresh query parameters from any tape, and query any index for which query
generation succeeds; serialise, deserialise and parse the response. The parsed row always has one
digit per column, and digit `j` is digit `j` of the `i`-th element exactly when the noise of that
column, `<e, column j>` for the ternary error vector `e` drawn by the client, is in the window. -/
theorem C01_index_pir (prof : Profile) (prg : Prg) (seed : List U8) (strs : List (List Char))
    (elems : List (List U8)) (n m T b : Nat)
    (hb1 : 1 ≤ b) (hb : b ≤ 31) (hT : T < 2 ^ 64) (hm0 : 0 < m) (hm : m ≤ elems.length)
    (hdec : strs.map b64Decode = elems.map Res.ok)
    (hlen : ∀ e ∈ elems.take m, T ≤ 8 * e.length) :
    ∃ shard, Shard.fromBase64Strings prof prg seed strs n m T b = .ok shard ∧
      ∀ tape qp tape',
        generateIndexQueryParams
          (commonParamsFrom prg shard.baseParams.publicSeed shard.baseParams.dim
            shard.baseParams.m) shard.baseParams tape = .ok (qp, tape') →
        ∃ s t1 e, randomTernaryVector n tape = .ok (s, t1) ∧
          randomTernaryVector m t1 = .ok (e, tape') ∧
          ∀ i qp' q, qp.generateIndexQuery prof i = (qp', .ok q) →
            ∃ hi : i < m, ∃ bytes resp row,
              shard.respond q = .ok bytes ∧ bincodeDeserialize bytes = .ok resp ∧
              qp'.parseIndexRow prof resp = .ok row ∧ row.length = width T b ∧
              (∀ j < width T b,
                row[j]? = some (BitVec.ofNat 32 (digit b (leNat elems[i]) j)) ↔
                  InWindow b (dot e (column b j (elems.take m)))) ∧
              (row = rowOf b (width T b) elems[i] ↔
                ∀ j < width T b, InWindow b (dot e (column b j (elems.take m)))) := by
  refine ⟨shardOf prg seed elems n m T b, shard_ok hdec hb1 (by omega) hm0 hm
    (fun e he => le_trans (width_mul_le (by omega)) (hlen e he)), ?_⟩
  intro tape qp tape' hgen
  obtain ⟨s, t1, e, hs, he, hall⟩ := index_exchange (prof := prof) hb1 hb hm hgen
  refine ⟨s, t1, e, hs, he, ?_⟩
  intro i qp' q hq
  obtain ⟨hi, resp, hans, hparse⟩ := hall i qp' q hq
  have hrl : resp.length = width T b := by
    have h := hans
    rw [Shard.answer] at h
    obtain ⟨w, hw, h⟩ := Res.bind_eq_ok.1 h
    have hw' : getRowWidth T b = .ok w := hw
    rw [getRowWidth_ok (by omega)] at hw'
    cases hw'
    rw [mapRes_length h, List.length_range]; rfl
  have hwT : width T b ≤ T + b - 1 := Nat.div_le_self _ _
  have hpt : ∀ j < width T b,
      ((List.range (width T b)).map fun j => BitVec.ofNat 32 ((digit b (leNat (elems[i])) j +
              carry b (dot e (column b j (elems.take m)))) % 2 ^ b))[j]? =
        some (BitVec.ofNat 32 (digit b (leNat elems[i]) j)) ↔
          InWindow b (dot e (column b j (elems.take m))) := by
    intro j hj
    rw [← carry_window hb1 hb, ← ofNat_digit_mod (by omega : b ≤ 32) (leNat elems[i]) j]
    simp [hj]
  refine ⟨hi, bincodeSerialize resp, resp, _, ?_, ?_, hparse, by simp, hpt, ?_⟩
  · have hans' : (shardOf prg seed elems n m T b).answer q = .ok resp := hans
    rw [Shard.respond, hans']; rfl
  · have := bincodeDeserialize_serialize resp [] (by
      rw [hrl]
      unfold width
      rcases Nat.lt_or_ge 1 b with h | h
      · have h2 : (T + b - 1) / b ≤ (T + b - 1) / 2 := Nat.div_le_div_left (by omega) (by omega)
        omega
      · have : b = 1 := by omega
        subst this
        simpa using hT)
    simpa using this
  · constructor
    · intro h j hj
      rw [← hpt j hj, h]
      simp [rowOf, hj]
    · intro h
      apply List.ext_getElem?
      intro j
      by_cases hj : j < width T b
      · rw [(hpt j hj).2 (h j hj)]
        simp [rowOf, hj]
      · rw [List.getElem?_eq_none (by simp; omega),
          List.getElem?_eq_none (by rw [rowOf_length]; omega)]

/-- Non-vacuity of C01: three 2-byte elements, 5-bit plaintexts, LWE dimension 2. Parameters and a
query exist, and the noise is in the window. -/
example :
    let strs := ["AAE=".toList, "/38=".toList, "EjQ=".toList]
    let prg : Prg := fun _ k => BitVec.ofNat 32 (1000003 * k + 17)
    let tape := (List.range 10).map fun k => BitVec.ofNat 32 (2000000000 + k * 300000000)
    (do let shard ← Shard.fromBase64Strings .debug prg [] strs 2 3 16 5
        let (qp, _) ← generateIndexQueryParams (commonParamsFrom prg [] 2 3) shard.baseParams tape
        let (qp', q) := qp.generateIndexQuery .debug 1
        let q ← q
        let bytes ← shard.respond q
        let resp ← bincodeDeserialize bytes
        qp'.parseIndexBytes .debug resp) = .ok [255#8, 127#8] := by decide +kernel

/-- **C02.** One coordinate: the client gets `D*y + nu + c` (`c` is what it subtracts) where `y < 2^b`
is the stored digit and `nu` the noise. It decodes `y` exactly when `nu`, as a signed number, is in
`(-D/2, D/2]`. -/
theorem C02_decryption_boundary (prof : Profile) (b : Nat) (hb1 : 1 ≤ b) (hb : b ≤ 31)
    (y nu c : U32) (hy : y.toNat < 2 ^ b) :
    (do let factor ← getRoundingFactor prof b
        let floor ← getRoundingFloor prof b
        let p ← getPlaintextSize prof b
        let r ← roundCoord prof factor floor (BitVec.ofNat 32 (2 ^ (32 - b)) * y + nu + c) c
        modPlain r p) = .ok y ↔
      (-(2 ^ (31 - b) : Int) < signed nu ∧ signed nu ≤ 2 ^ (31 - b)) := by
  rw [getRoundingFactor_ok hb, getRoundingFloor_ok hb1 hb, getPlaintextSize_ok hb]
  simp only [Res.bind_ok]
  rw [parseCoord hb1 hb, Res.ok.injEq]
  have h2 : 2 ^ b < 2 ^ 32 := Nat.pow_lt_pow_right (by omega) (by omega)
  have h3 := Nat.mod_lt (y.toNat + carry b nu) (Nat.two_pow_pos b)
  rw [show (-(2 ^ (31 - b) : Int) < signed nu ∧ signed nu ≤ 2 ^ (31 - b)) = InWindow b nu from rfl,
    ← carry_window hb1 hb, ← add_mod_eq_left hy]
  constructor
  · intro h
    have := congrArg BitVec.toNat h
    rwa [BitVec.toNat_ofNat, Nat.mod_eq_of_lt (a := (y.toNat + carry b nu) % 2 ^ b) (by omega)]
      at this
  · intro h
    rw [h]; simp

/-- **C02, one step outside the window.** Noise `D/2 + 1` decodes to the next digit and noise
`-D/2` to the previous one (cyclically), whenever the window is not everything. -/
theorem C02_neighbours (prof : Profile) (b : Nat) (hb1 : 1 ≤ b) (hb : b ≤ 31)
    (y c : U32) :
    let D : U32 := BitVec.ofNat 32 (2 ^ (32 - b))
    let H : U32 := BitVec.ofNat 32 (2 ^ (31 - b))
    let dec := fun nu : U32 => (do
        let factor ← getRoundingFactor prof b
        let floor ← getRoundingFloor prof b
        let p ← getPlaintextSize prof b
        let r ← roundCoord prof factor floor (D * y + nu + c) c
        modPlain r p)
    dec (H + 1#32) = .ok (BitVec.ofNat 32 ((y.toNat + 1) % 2 ^ b)) ∧
    dec (-H) = .ok (BitVec.ofNat 32 ((y.toNat + (2 ^ b - 1)) % 2 ^ b)) := by
  have hD1 : 2 ^ (32 - b) = 2 * 2 ^ (31 - b) := by
    rw [← Nat.pow_succ']; congr 1; omega
  have hle : 2 ^ (31 - b) ≤ 2 ^ 30 := Nat.pow_le_pow_right (by omega) (by omega)
  have hpos := Nat.two_pow_pos (31 - b)
  have hsplit := pow_split (b := b) (by omega)
  simp only
  rw [getRoundingFactor_ok (by omega), getRoundingFloor_ok hb1 (by omega),
    getPlaintextSize_ok (by omega)]
  simp only [Res.bind_ok]
  rw [parseCoord hb1 (by omega), parseCoord hb1 (by omega)]
  have hH : (BitVec.ofNat 32 (2 ^ (31 - b))).toNat = 2 ^ (31 - b) := by
    rw [BitVec.toNat_ofNat]; exact Nat.mod_eq_of_lt (by omega)
  constructor
  · have e1 : (BitVec.ofNat 32 (2 ^ (31 - b)) + 1#32).toNat = 2 ^ (31 - b) + 1 := by
      rw [BitVec.toNat_add, hH]
      simp
      omega
    have e3 : carry b (BitVec.ofNat 32 (2 ^ (31 - b)) + 1#32) = 1 := by
      rw [carry, e1]
      by_cases h31 : b = 31
      · subst h31; rfl
      · have hD2 : 2 ^ (31 - b) = 2 * 2 ^ (30 - b) := by
          rw [← Nat.pow_succ']; congr 1; omega
        have := Nat.two_pow_pos (30 - b)
        rw [Nat.div_eq_of_lt (by omega), Nat.mod_eq_of_lt (by omega), if_pos (by omega)]
    rw [e3]
  · have e1 : (-BitVec.ofNat 32 (2 ^ (31 - b))).toNat = 2 ^ 32 - 2 ^ (31 - b) := by
      rw [BitVec.toNat_neg, hH]
      exact Nat.mod_eq_of_lt (by omega)
    have hp1 := Nat.two_pow_pos b
    have e2 : 2 ^ 32 - 2 ^ (31 - b) = 2 ^ (31 - b) + 2 ^ (32 - b) * (2 ^ b - 1) := by
      rw [Nat.mul_sub, hsplit]; omega
    have e3 : carry b (-BitVec.ofNat 32 (2 ^ (31 - b))) = 2 ^ b - 1 := by
      rw [carry, e1, e2, Nat.add_mul_div_left _ _ (Nat.two_pow_pos _), Nat.add_mul_mod_self_left,
        Nat.div_eq_of_lt (by omega), Nat.mod_eq_of_lt (by omega), if_neg (by omega)]
      omega
    rw [e3]

/-- Non-vacuity of C02: both sides of the boundary are inhabited for `b = 9`. -/
example : (-(2 ^ 22 : Int) < signed 0x400000#32 ∧ signed 0x400000#32 ≤ 2 ^ 22) ∧
    ¬ (-(2 ^ 22 : Int) < signed 0x400001#32 ∧ signed 0x400001#32 ≤ 2 ^ 22) := by decide +kernel

/-- **C03 (general form).** Retrieval is correct whenever (number of non-zero coordinates of the
drawn error vector) times the largest plaintext digit is below `D/2`. -/
theorem C03_noise_weight (prof : Profile) (prg : Prg) (seed : List U8) (strs : List (List Char))
    (elems : List (List U8)) (n m T b : Nat)
    (hb1 : 1 ≤ b) (hb : b ≤ 31) (hT : T < 2 ^ 64) (hm0 : 0 < m) (hm : m ≤ elems.length)
    (hdec : strs.map b64Decode = elems.map Res.ok)
    (hlen : ∀ e ∈ elems.take m, T ≤ 8 * e.length) :
    ∃ shard, Shard.fromBase64Strings prof prg seed strs n m T b = .ok shard ∧
      ∀ tape qp tape',
        generateIndexQueryParams
          (commonParamsFrom prg shard.baseParams.publicSeed shard.baseParams.dim
            shard.baseParams.m) shard.baseParams tape = .ok (qp, tape') →
        ∃ s t1 e, randomTernaryVector n tape = .ok (s, t1) ∧
          randomTernaryVector m t1 = .ok (e, tape') ∧
          (weight e * (2 ^ b - 1) < 2 ^ (31 - b) →
            ∀ i qp' q, qp.generateIndexQuery prof i = (qp', .ok q) →
              ∃ hi : i < m, ∃ bytes resp, shard.respond q = .ok bytes ∧ bincodeDeserialize bytes = .ok resp ∧
                qp'.parseIndexRow prof resp = .ok (rowOf b (width T b) elems[i])) := by
  refine ⟨shardOf prg seed elems n m T b, shard_ok hdec hb1 (by omega) hm0 hm
    (fun e he => le_trans (width_mul_le (by omega)) (hlen e he)), ?_⟩
  intro tape qp tape' hgen
  obtain ⟨s, t1, e, hs, he, hall⟩ := index_exchange (prof := prof) hb1 hb hm hgen
  refine ⟨s, t1, e, hs, he, ?_⟩
  intro hw i qp' q hq
  obtain ⟨hi, resp, hans, hparse⟩ := hall i qp' q hq
  obtain ⟨bytes, hresp, hdes⟩ := shard_respond_bytes (s := shardOf prg seed elems n m T b) hT hans
  refine ⟨hi, bytes, resp, hresp, hdes, ?_⟩
  rw [hparse]
  congr 1
  unfold rowOf
  apply List.map_congr_left
  intro j _
  rw [ofNat_digit_mod (by omega), carry_window hb1 hb]
  exact noise_inWindow hb1 hb (randomTernaryVector_spec he).2 (column_lt (by omega) _) hw

/-- **C03.** If `m * (2^b - 1) < 2^(31-b)` then index retrieval is correct for every tape, index and
database: decryption errors are impossible. -/
theorem C03_worst_case (prof : Profile) (prg : Prg) (seed : List U8) (strs : List (List Char))
    (elems : List (List U8)) (n m T b : Nat)
    (hb1 : 1 ≤ b) (hb : b ≤ 31) (hT : T < 2 ^ 64) (hm0 : 0 < m) (hm : m ≤ elems.length)
    (hdec : strs.map b64Decode = elems.map Res.ok)
    (hlen : ∀ e ∈ elems.take m, T ≤ 8 * e.length)
    (hbound : m * (2 ^ b - 1) < 2 ^ (31 - b)) :
    ∃ shard, Shard.fromBase64Strings prof prg seed strs n m T b = .ok shard ∧
      ∀ tape qp tape',
        generateIndexQueryParams
          (commonParamsFrom prg shard.baseParams.publicSeed shard.baseParams.dim
            shard.baseParams.m) shard.baseParams tape = .ok (qp, tape') →
        ∀ i qp' q, qp.generateIndexQuery prof i = (qp', .ok q) →
          ∃ hi : i < m, ∃ bytes resp, shard.respond q = .ok bytes ∧ bincodeDeserialize bytes = .ok resp ∧
            qp'.parseIndexRow prof resp = .ok (rowOf b (width T b) elems[i]) := by
  obtain ⟨shard, h1, h2⟩ := C03_noise_weight prof prg seed strs elems n m T b hb1 hb hT hm0 hm hdec hlen
  refine ⟨shard, h1, ?_⟩
  intro tape qp tape' hgen
  obtain ⟨s, t1, e, _, he, h⟩ := h2 tape qp tape' hgen
  apply h
  have h3 := (randomTernaryVector_spec he).1
  have h4 : weight e ≤ m := h3 ▸ weight_le e
  exact lt_of_le_of_lt (Nat.mul_le_mul_right _ h4) hbound

/-- Non-vacuity of C03: the README-style parameters `m = 2^12, b = 9` satisfy the bound. -/
example : 2 ^ 12 * (2 ^ 9 - 1) < 2 ^ (31 - 9) := by decide

/-- **C03, sharpness.** The bound cannot be relaxed: as soon as `m * (2^b-1) ≥ 2^(31-b)` the all-(-1) error vector on a
database of maximal digits is outside the window. -/
theorem C03_sharp (b m : Nat) (hlo : 2 ^ (31 - b) ≤ m * (2 ^ b - 1))
    (hhi : m * (2 ^ b - 1) ≤ 2 ^ 31) :
    ¬ InWindow b (dot (List.replicate m (BitVec.allOnes 32))
      (List.replicate m (BitVec.ofNat 32 (2 ^ b - 1)))) := by
  have key : ∀ m : Nat, dot (List.replicate m (BitVec.allOnes 32))
      (List.replicate m (BitVec.ofNat 32 (2 ^ b - 1))) =
      BitVec.ofInt 32 (-((m * (2 ^ b - 1) : Nat) : Int)) := by
    intro m
    induction m with
    | zero => simp [dot]
    | succ m ih =>
      rw [List.replicate_succ, List.replicate_succ, dot, ih]
      have : BitVec.allOnes 32 * BitVec.ofNat 32 (2 ^ b - 1) =
          BitVec.ofInt 32 (-((2 ^ b - 1 : Nat) : Int)) := by
        rw [← BitVec.neg_one_eq_allOnes, BitVec.neg_mul, BitVec.one_mul, BitVec.ofInt_neg,
          BitVec.ofInt_natCast]
      rw [this, ← BitVec.ofInt_add]
      congr 1
      push_cast
      ring
  have hz : ((2 : Int) ^ (31 - b)) = ((2 ^ (31 - b) : Nat) : Int) := by norm_cast
  rw [key, InWindow, signed_ofInt (by omega) (by omega), hz]
  omega

/-- Non-vacuity of sharpness: `b = 15`, `m = 3`. -/
example : 2 ^ (31 - 15) ≤ 3 * (2 ^ 15 - 1) ∧ 3 * (2 ^ 15 - 1) ≤ 2 ^ 31 := by decide

end Chalamet
