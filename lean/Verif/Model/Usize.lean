import Verif.Model.Api

/-!
# The size arithmetic of `src/db/*.rs` and `src/utils.rs` in 64-bit machine words

The other modules model `usize` by natural numbers. Here the functions that multiply or add sizes are modelled once more with
machine arithmetic (overflow panics in debug builds and wraps in release builds), for a 64-bit target; C106 compares the two.
-/

namespace Chalamet

/-- A `usize` computation with exact result `x`: overflow panics in debug builds and wraps in release builds
(src/db/index.rs:184-188, src/db/kv.rs:255-259, src/utils.rs:234). -/
def usizeRes (prof : Profile) (x : Nat) : Res Nat :=
  if x < 2 ^ 64 then .ok x
  else match prof with
    | .debug => .panic
    | .release => .ok (x % 2 ^ 64)

/-- `get_row_width` (src/db/index.rs:87-93, src/db/kv.rs:216-222). -/
def getRowWidthU (prof : Profile) (elementSize plaintextBits : Nat) : Res Nat :=
  if plaintextBits = 0 then .panic
  else if elementSize % plaintextBits ≠ 0 then usizeRes prof (elementSize / plaintextBits + 1)
  else .ok (elementSize / plaintextBits)

/-- Body of the loop of `construct_row` (src/db/index.rs:183-190, src/db/kv.rs:254-261). -/
def rowDigitU (prof : Profile) (bits : List Bool) (plaintextBits i : Nat) : Res U32 := do
  let endBound ← usizeRes prof ((i + 1) * plaintextBits)
  if endBound < bits.length then do
    let lo ← usizeRes prof (i * plaintextBits)
    let chunk ← sliceRes bits lo endBound
    bitsToU32Le prof chunk
  else do
    let lo ← usizeRes prof (i * plaintextBits)
    let chunk ← sliceRes bits lo bits.length
    bitsToU32Le prof chunk

/-- `construct_row` of the index database (src/db/index.rs:175-192). -/
def constructRowU (prof : Profile) (element : List Char) (plaintextBits rowWidth : Nat) : Res (List U32) := do
  let bytes ← b64Decode element
  mapRes (rowDigitU prof (bytesToBitsLe bytes) plaintextBits) (List.range rowWidth)

/-- `construct_rows` (src/db/index.rs:194-207). -/
def constructRowsU (prof : Profile) (elements : List (List Char)) (m elemSize plaintextBits : Nat) :
    Res (List (List U32)) := do
  let rowWidth ← getRowWidthU prof elemSize plaintextBits
  mapRes (fun i => do
    let e ← rd elements i
    constructRowU prof e plaintextBits rowWidth) (List.range m)

/-- `IndexDatabase::new` (src/db/index.rs:21-38). -/
def IndexDatabase.newU (prof : Profile) (elements : List (List Char)) (m elemSize plaintextBits : Nat) :
    Res IndexDatabase := do
  let rows ← constructRowsU prof elements m elemSize plaintextBits
  let entries ← swapMatrixFmt rows
  .ok { entries := entries, m := m, elemSize := elemSize, plaintextBits := plaintextBits }

/-- `Shard::from_base64_strings` (src/api.rs:46-56). The row width computed again for the public parameters
(src/db/mod.rs:30-49) is the one computed here. -/
def Shard.fromBase64StringsU (prof : Profile) (prg : Prg) (publicSeed : List U8)
    (strs : List (List Char)) (lweDim m elemSize plaintextBits : Nat) : Res Shard := do
  let db ← IndexDatabase.newU prof strs m elemSize plaintextBits
  let bp ← IndexParams.new prg publicSeed db lweDim
  .ok { db := db, baseParams := bp }

/-- `construct_row` of the key-value database (src/db/kv.rs:245-263). -/
def kvConstructRowU (prof : Profile) (element : List Char) (plaintextBits elemSize : Nat) : Res (List U32) := do
  let rowWidth ← getRowWidthU prof elemSize plaintextBits
  let bytes ← b64Decode element
  mapRes (rowDigitU prof (bytesToBitsLe bytes) plaintextBits) (List.range rowWidth)

/-- `KeyValue::from_base64_strings` (src/db/kv.rs:23-32). -/
def KeyValue.fromBase64StringsU (prof : Profile) (sha : Sha) (k : List U8) (v : List Char)
    (elemSize plaintextBits : Nat) : Res KeyValue := do
  let key ← sha256IntoU64Sized sha k
  let value ← kvConstructRowU prof v plaintextBits elemSize
  .ok { key := key, value := value }

/-- `KVDatabase::from_base64_strings` (src/db/kv.rs:144-180). -/
def KVDatabase.fromBase64StringsU (prof : Profile) (sha : Sha) (segExp cap0 : Nat)
    (fp0 : Nat → Nat → U32) (seed : List U8) (keys : List (List U8)) (values : List (List Char))
    (m elemSize plaintextBits : Nat) : Res KVDatabase :=
  if keys.length ≠ values.length then .err .kvCountMismatch
  else
    match collectEager (fun kv : List U8 × List Char =>
        KeyValue.fromBase64StringsU prof sha kv.1 kv.2 elemSize plaintextBits)
        (keys.zip values) with
    | .ok kvs => KVDatabase.new prof segExp cap0 fp0 seed kvs m elemSize plaintextBits
    | .err _ => .err .kvConstruct
    | .panic => .panic
    | .diverge => .diverge

/-- `KVShard::from_base64_strings` (src/api.rs:173-203). -/
def KVShard.fromBase64StringsU (prof : Profile) (sha : Sha) (prg : Prg) (publicSeed : List U8)
    (segExp cap0 : Nat) (fp0 : Nat → Nat → U32) (filterSeed : List U8)
    (keys : List (List U8)) (values : List (List Char))
    (lweDim m elemSize plaintextBits : Nat) : Res KVShard := do
  let db ← KVDatabase.fromBase64StringsU prof sha segExp cap0 fp0 filterSeed keys values m elemSize
    plaintextBits
  let bp ← KVParams.new prg publicSeed db lweDim
  .ok { db := db, baseParams := bp }

/-- `bytes_from_u32_slice` (src/utils.rs:228-245): `Vec::with_capacity` of more than `isize::MAX` bytes panics (a `bool`
takes one byte). That the allocator can refuse smaller sizes is not modelled. -/
def bytesFromU32SliceU (prof : Profile) (v : List U32) (entryBitLen totalBitLen : Nat) : Res (List U8) :=
  if entryBitLen = 0 then .panic
  else do
    let remainder := totalBitLen % entryBitLen
    let capacity ← usizeRes prof (entryBitLen * v.length)
    if 2 ^ 63 ≤ capacity then .panic
    else do
      let chunks ← mapRes (fun i => do
          let x ← rd v i
          if i ≠ v.length - 1 then u32ToBitsLe x entryBitLen else u32ToBitsLe x remainder)
        (List.range v.length)
      bitsToBytesLe prof chunks.flatten

end Chalamet
