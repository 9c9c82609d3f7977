import Verif.Basic

/-!
# Model of `src/utils.rs` (modules `lwe`, `matrices`, `format`)

`base64_from_u32_slice` is in `Verif/Model/Base64.lean`.
-/

namespace Chalamet

/-! ## `utils::lwe` (src/utils.rs:5-24) -/

/-- `MODULUS = u32::MAX as u64 + 1` (src/utils.rs:6). -/
def lweModulus : Nat := 2 ^ 32

/-- `get_plaintext_size` (src/utils.rs:20-23): `2u32.pow(plaintext_bits as u32)`. The cast truncates
to 32 bits; an exponent of 32 or more overflows (panic in debug, wraps to 0 in release). -/
def getPlaintextSize (prof : Profile) (plaintextBits : Nat) : Res U32 :=
  let e := plaintextBits % 2 ^ 32
  if e < 32 then .ok (BitVec.ofNat 32 (2 ^ e))
  else match prof with
    | .debug => .panic
    | .release => .ok 0#32

/-- `get_rounding_factor` (src/utils.rs:10-12):
`(MODULUS / get_plaintext_size(plaintext_bits) as u64) as u32`. Division by zero panics; the cast
truncates (so `plaintext_bits = 0` gives 0). -/
def getRoundingFactor (prof : Profile) (plaintextBits : Nat) : Res U32 := do
  let p ← getPlaintextSize prof plaintextBits
  if p.toNat = 0 then .panic else .ok (BitVec.ofNat 32 (lweModulus / p.toNat))

/-- `get_rounding_floor` (src/utils.rs:16-18). -/
def getRoundingFloor (prof : Profile) (plaintextBits : Nat) : Res U32 := do
  let f ← getRoundingFactor prof plaintextBits
  .ok (f / 2#32)

/-! ## `utils::matrices` (src/utils.rs:27-135) -/

/-- `get_matrix_second_at` (src/utils.rs:36-38). -/
def getMatrixSecondAt (matrix : List (List U32)) (secidx : Nat) : Res (List U32) :=
  mapRes (fun y => rd y secidx) matrix

/-- One iteration of the inner loop of `swap_matrix_fmt` (src/utils.rs:46-48):
`swapped_row[i].push(current_row[i])`. -/
def swapPush (row : List U32) (acc : List (List U32)) (i : Nat) : Res (List (List U32)) := do
  let x ← rd row i
  let col ← rd acc i
  wr acc i (col ++ [x])

/-- One iteration of the outer loop of `swap_matrix_fmt` (src/utils.rs:45-49): the loop over
`i in 0..width`; reading past a short row panics. -/
def swapStep (width : Nat) (acc : List (List U32)) (row : List U32) : Res (List (List U32)) :=
  foldRes (swapPush row) acc (List.range width)

/-- `swap_matrix_fmt` (src/utils.rs:41-51): `matrix[0]` panics on an empty matrix. -/
def swapMatrixFmt (matrix : List (List U32)) : Res (List (List U32)) := do
  let row0 ← rd matrix 0
  foldRes (swapStep row0.length) (List.replicate row0.length []) matrix

/-- `StdRng::from_seed(seed)` followed by `next_u32` calls (src/utils.rs:90-92): an arbitrary
deterministic function from the 32-byte seed and the position in the output stream. -/
abbrev Prg := List U8 → Nat → U32

/-- A seeded generator: its seed and how many words were drawn so far.
`StdRng` (src/utils.rs:90-92). -/
structure SeededRng where
  seed : List U8
  drawn : Nat
  deriving DecidableEq, Repr

/-- `get_seeded_rng` (src/utils.rs:90-92). -/
def getSeededRng (seed : List U8) : SeededRng := { seed := seed, drawn := 0 }

/-- `rng.next_u32()` (src/utils.rs:64). -/
def SeededRng.nextU32 (prg : Prg) (rng : SeededRng) : U32 × SeededRng :=
  (prg rng.seed rng.drawn, { rng with drawn := rng.drawn + 1 })

/-- The inner loop of `generate_lwe_matrix_from_seed` (src/utils.rs:63-65) with `n` iterations to go. -/
def lweRow (prg : Prg) : Nat → List U32 → SeededRng → List U32 × SeededRng
  | 0, v, rng => (v, rng)
  | n + 1, v, rng => lweRow prg n (v ++ [(rng.nextU32 prg).1]) (rng.nextU32 prg).2

/-- The outer loop of `generate_lwe_matrix_from_seed` (src/utils.rs:61-67) with `n` iterations to go. -/
def lweRows (prg : Prg) (lweDim : Nat) : Nat → List (List U32) → SeededRng → List (List U32)
  | 0, lhs, _ => lhs
  | n + 1, lhs, rng => lweRows prg lweDim n (lhs ++ [(lweRow prg lweDim [] rng).1]) (lweRow prg lweDim [] rng).2

/-- `generate_lwe_matrix_from_seed` (src/utils.rs:54-69). -/
def generateLweMatrixFromSeed (prg : Prg) (seed : List U8) (lweDim width : Nat) :
    List (List U32) :=
  lweRows prg lweDim width [] (getSeededRng seed)

/-- One iteration of the loop of `vec_mult_u32_u32` (src/utils.rs:83-85):
`acc = acc.wrapping_add(row[i].wrapping_mul(col[i]))`. -/
def dotStep (row col : List U32) (acc : U32) (i : Nat) : Res U32 := do
  let r ← rd row i
  let c ← rd col i
  .ok (acc + r * c)

/-- `vec_mult_u32_u32` (src/utils.rs:72-87). -/
def vecMult (row col : List U32) : Res U32 :=
  if row.length ≠ col.length then .err .inputSize
  else foldRes (dotStep row col) 0#32 (List.range row.length)

/-- `TERNARY_INTERVAL_SIZE = (u32::MAX - 2) / 3` (src/utils.rs:97). -/
def ternaryIntervalSize : Nat := (2 ^ 32 - 1 - 2) / 3

/-- `TERNARY_REJECTION_SAMPLING_MAX = TERNARY_INTERVAL_SIZE * 3` (src/utils.rs:99). -/
def ternaryRejectionSamplingMax : Nat := ternaryIntervalSize * 3

/-- The final classification in `random_ternary` (src/utils.rs:117-123). -/
def ternaryOf (val : U32) : U32 :=
  if val.toNat > ternaryIntervalSize ∧ val.toNat ≤ ternaryIntervalSize * 2 then 1#32
  else if val.toNat > ternaryIntervalSize * 2 then BitVec.allOnes 32
  else 0#32

/-- `random_ternary` (src/utils.rs:104-124). `OsRng` is a tape of u32 words; the rest of the tape
is returned. A tape that never yields an acceptable word makes the sampling loop run forever. -/
def randomTernary : List U32 → Res (U32 × List U32)
  | [] => .diverge
  | val :: tape =>
    if val.toNat > ternaryRejectionSamplingMax then randomTernary tape
    else .ok (ternaryOf val, tape)

/-- `random_ternary_vector` (src/utils.rs:128-134). -/
def randomTernaryVector : Nat → List U32 → Res (List U32 × List U32)
  | 0, tape => .ok ([], tape)
  | width + 1, tape => do
    let (x, tape) ← randomTernary tape
    let (row, tape) ← randomTernaryVector width tape
    .ok (x :: row, tape)

/-! ## `utils::format` (src/utils.rs:148-283) -/

/-- `u8_to_bits_le` (src/utils.rs:153-159): bit `i` is `2u8.pow(i) & byte > 0`. -/
def u8ToBitsLe (byte : U8) : List Bool :=
  (List.range 8).map fun i => decide ((BitVec.ofNat 8 (2 ^ i) &&& byte).toNat > 0)

/-- `u32::to_le_bytes`
(src/utils.rs:162). -/
def u32ToLeBytes (x : U32) : List U8 :=
  (List.range 4).map fun i => BitVec.ofNat 8 (x.toNat / 2 ^ (8 * i))

/-- `u32_to_bits_le` (src/utils.rs:161-168): slicing `bits[..bit_len]` panics past 32. -/
def u32ToBitsLe (x : U32) (bitLen : Nat) : Res (List Bool) :=
  let bits := (u32ToLeBytes x).flatMap u8ToBitsLe
  if bitLen ≤ bits.length then .ok (bits.take bitLen) else .panic

/-- One iteration of the loop of `bits_to_bytes_le` (src/utils.rs:172-178):
`bytes[i/8] += 2u8.pow(i % 8)` when the bit is set. Simplification: the code computes `i / 8` in `f64`;
`bitsToBytesLeF64` (`Verif/Model/Float.lean`) does the same, and C10 shows that it makes no difference. -/
def bitsToBytesStep (prof : Profile) (bytes : List U8) (ib : Nat × Bool) : Res (List U8) :=
  if ib.2 then do
    let old ← rd bytes (ib.1 / 8)
    let new ← addC prof old (BitVec.ofNat 8 (2 ^ (ib.1 % 8)))
    wr bytes (ib.1 / 8) new
  else .ok bytes

/-- `bits_to_bytes_le` (src/utils.rs:170-180). -/
def bitsToBytesLe (prof : Profile) (bits : List Bool) : Res (List U8) :=
  foldRes (bitsToBytesStep prof) (List.replicate ((bits.length + 7) / 8) 0#8)
    ((List.range bits.length).zip bits)

/-- `bytes_to_bits_le` (src/utils.rs:182-192). -/
def bytesToBitsLe (bytes : List U8) : List Bool := bytes.flatMap u8ToBitsLe

/-- `u32::from_le_bytes` of a 4-byte array
(src/utils.rs:209). -/
def u32FromLeBytes (bytes : List U8) : U32 :=
  BitVec.ofNat 32 (bytes.foldr (fun b acc => b.toNat + 256 * acc) 0)

/-- `u32_sized_bytes_from_vec` (src/utils.rs:212-226). -/
def u32SizedBytesFromVec (bytes : List U8) : Res (List U8) :=
  if bytes.length = 4 then .ok bytes else .err .inputSize

/-- `bits_to_u32_le` (src/utils.rs:194-210). -/
def bitsToU32Le (prof : Profile) (bits : List Bool) : Res U32 := do
  let bytes ← bitsToBytesLe prof bits
  if bytes.length > 4 then .err .inputSize
  else do
    let sized ← u32SizedBytesFromVec (bytes ++ List.replicate (4 - bytes.length) 0#8)
    .ok (u32FromLeBytes sized)

/-- `bytes_from_u32_slice` (src/utils.rs:228-245). `total_bit_len % entry_bit_len` panics for
`entry_bit_len = 0`; every entry but the last contributes `entry_bit_len` bits, the last
contributes `remainder` bits. -/
def bytesFromU32Slice (prof : Profile) (v : List U32) (entryBitLen totalBitLen : Nat) :
    Res (List U8) :=
  if entryBitLen = 0 then .panic
  else do
    let remainder := totalBitLen % entryBitLen
    let chunks ← mapRes (fun i => do
        let x ← rd v i
        if i ≠ v.length - 1 then u32ToBitsLe x entryBitLen else u32ToBitsLe x remainder)
      (List.range v.length)
    bitsToBytesLe prof chunks.flatten

/-- `u64::from_le_bytes` of an 8-byte array
(src/utils.rs:279). -/
def u64FromLeBytes (bytes : List U8) : U64 :=
  BitVec.ofNat 64 (bytes.foldr (fun b acc => b.toNat + 256 * acc) 0)

/-- SHA-256 as used through `Sha256::new/update/finalize`: an arbitrary function from byte strings
to byte strings. That digests are 32 bytes long is stated where it is used
(src/utils.rs:258-260). -/
abbrev Sha := List U8 → List U8

/-- `sha256_into_u64_sized` (src/utils.rs:255-282). -/
def sha256IntoU64Sized (sha : Sha) (input : List U8) : Res (List U64) :=
  let digest := sha input
  if digest.length ≠ 32 then .err .inputSize
  else mapRes (fun i =>
    let bv := (digest.drop (8 * i)).take 8
    if bv.length = 8 then .ok (u64FromLeBytes bv) else .err .inputSize) (List.range 4)

/-- `KVDatabase::get_row_width` / `IndexDatabase::get_row_width`
(src/db/kv.rs:216-222, src/db/index.rs:87-93): panics for `plaintext_bits = 0`. -/
def getRowWidth (elementSize plaintextBits : Nat) : Res Nat :=
  if plaintextBits = 0 then .panic
  else .ok (elementSize / plaintextBits + if elementSize % plaintextBits ≠ 0 then 1 else 0)

end Chalamet
