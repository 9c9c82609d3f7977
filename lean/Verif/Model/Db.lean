import Verif.Model.Base64
import Verif.Model.BFuse

/-!
# Model of `src/db/mod.rs`, `src/db/index.rs`, `src/db/kv.rs`

Strings are lists of characters (base64 values) or byte strings (keywords). Randomness is explicit:
`prg` is `StdRng::from_seed`, `publicSeed`/`filterSeed` are the seeds drawn from `OsRng`, `tape` is
the sequence of words drawn from `OsRng.next_u32`.
-/

namespace Chalamet

/-- Rust `l[lo..hi]`: panics when `lo > hi` or `hi > l.len()`
(src/db/index.rs:183-190, src/db/kv.rs:254-261). -/
def sliceRes {α : Type} (l : List α) (lo hi : Nat) : Res (List α) :=
  if lo ≤ hi ∧ hi ≤ l.length then .ok ((l.drop lo).take (hi - lo)) else .panic

/-- Body of the loop of `construct_row` (src/db/index.rs:183-190, src/db/kv.rs:254-261). -/
def rowDigit (prof : Profile) (bits : List Bool) (plaintextBits i : Nat) : Res U32 := do
  let endBound := (i + 1) * plaintextBits
  if endBound < bits.length then do
    let chunk ← sliceRes bits (i * plaintextBits) endBound
    bitsToU32Le prof chunk
  else do
    let chunk ← sliceRes bits (i * plaintextBits) bits.length
    bitsToU32Le prof chunk

/-- `construct_row` of the index database (src/db/index.rs:175-192). -/
def constructRow (prof : Profile) (element : List Char) (plaintextBits rowWidth : Nat) :
    Res (List U32) := do
  let bytes ← b64Decode element
  mapRes (rowDigit prof (bytesToBitsLe bytes) plaintextBits) (List.range rowWidth)

/-- `construct_rows` (src/db/index.rs:194-207): `elements[i]` panics past the end; elements from `m`
on are ignored. -/
def constructRows (prof : Profile) (elements : List (List Char)) (m elemSize plaintextBits : Nat) :
    Res (List (List U32)) := do
  let rowWidth ← getRowWidth elemSize plaintextBits
  mapRes (fun i => do
    let e ← rd elements i
    constructRow prof e plaintextBits rowWidth) (List.range m)

/-- `struct IndexDatabase` (src/db/index.rs:14-19). -/
structure IndexDatabase where
  entries : List (List U32)
  m : Nat
  elemSize : Nat
  plaintextBits : Nat
  deriving DecidableEq, Repr

/-- `IndexDatabase::new` (src/db/index.rs:21-38). -/
def IndexDatabase.new (prof : Profile) (elements : List (List Char))
    (m elemSize plaintextBits : Nat) : Res IndexDatabase := do
  let rows ← constructRows prof elements m elemSize plaintextBits
  let entries ← swapMatrixFmt rows
  .ok { entries := entries, m := m, elemSize := elemSize, plaintextBits := plaintextBits }

/-- The methods of trait `DatabaseMatrix` (src/db/mod.rs:12-23) used by the generic code. -/
class DatabaseMatrix (T : Type) where
  /-- `vec_mult` -/
  vecMult : T → List U32 → Nat → Res U32
  /-- `get_matrix_height` -/
  getMatrixHeight : T → Res Nat
  /-- `get_elem_size` -/
  getElemSize : T → Nat
  /-- `get_plaintext_bits` -/
  getPlaintextBits : T → Nat

/-- `IndexDatabase::vec_mult` (src/db/index.rs:56-65). -/
def IndexDatabase.vecMult (db : IndexDatabase) (row : List U32) (colIdx : Nat) : Res U32 := do
  let col ← rd db.entries colIdx
  if row.length ≠ col.length then .panic
  else (Chalamet.vecMult row col).unwrap

/-- `impl DatabaseMatrix for IndexDatabase` (src/db/index.rs:51-117). -/
instance : DatabaseMatrix IndexDatabase where
  vecMult := IndexDatabase.vecMult
  getMatrixHeight db := .ok db.m            -- src/db/index.rs:104-106
  getElemSize db := db.elemSize             -- src/db/index.rs:109-111
  getPlaintextBits db := db.plaintextBits   -- src/db/index.rs:114-116

/-- `IndexDatabase::switch_fmt` (src/db/index.rs:52-54). -/
def IndexDatabase.switchFmt (db : IndexDatabase) : Res IndexDatabase := do
  let entries ← swapMatrixFmt db.entries
  .ok { db with entries := entries }

/-- `IndexDatabase::get_row` (src/db/index.rs:73-75). -/
def IndexDatabase.getRow (db : IndexDatabase) (i : Nat) : Res (List U32) := rd db.entries i

/-- `IndexDatabase::get_db_entry` (src/db/index.rs:78-84). -/
def IndexDatabase.getDbEntry (prof : Profile) (db : IndexDatabase) (i : Nat) :
    Res (List Char) := do
  let row ← getMatrixSecondAt db.entries i
  base64FromU32Slice prof row db.plaintextBits db.elemSize

/-- `IndexDatabase::get_row_width_self` (src/db/index.rs:96-101). -/
def IndexDatabase.getRowWidthSelf (db : IndexDatabase) : Res Nat :=
  getRowWidth db.elemSize db.plaintextBits

/-! ## Public parameters -/

/-- `BaseParams::generate_params_rhs` (src/db/mod.rs:30-49). -/
def generateParamsRhs {T : Type} [DatabaseMatrix T] (prg : Prg) (db : T) (publicSeed : List U8)
    (dim : Nat) : Res (List (List U32)) := do
  let height ← DatabaseMatrix.getMatrixHeight db
  let lhs ← swapMatrixFmt (generateLweMatrixFromSeed prg publicSeed dim height)
  let width ← getRowWidth (DatabaseMatrix.getElemSize db) (DatabaseMatrix.getPlaintextBits db)
  mapRes (fun i => mapRes (fun r => DatabaseMatrix.vecMult db r i) lhs) (List.range width)

/-- `BaseParams::mult_right` (src/db/mod.rs:59-64). -/
def multRight (rhs : List (List U32)) (s : List U32) : Res (List U32) :=
  mapRes (fun col => vecMult s col) rhs

/-- `struct IndexParams` (src/db/index.rs:122-129). -/
structure IndexParams where
  dim : Nat
  m : Nat
  publicSeed : List U8
  rhs : List (List U32)
  elemSize : Nat
  plaintextBits : Nat
  deriving DecidableEq, Repr

/-- `IndexParams::new` (src/db/index.rs:131-141). -/
def IndexParams.new (prg : Prg) (publicSeed : List U8) (db : IndexDatabase) (dim : Nat) :
    Res IndexParams := do
  let rhs ← generateParamsRhs prg db publicSeed dim
  .ok { dim := dim, m := db.m, publicSeed := publicSeed, rhs := rhs,
        elemSize := db.elemSize, plaintextBits := db.plaintextBits }

/-- `CommonParams` (src/db/mod.rs:78) is its matrix; `CommonParams::from` (src/db/mod.rs:98-106),
given the seed, dimension and record count of the parameters. -/
def commonParamsFrom (prg : Prg) (publicSeed : List U8) (dim totalRecords : Nat) :
    List (List U32) :=
  generateLweMatrixFromSeed prg publicSeed dim totalRecords

/-- `CommonParams::mult_left` (src/db/mod.rs:87-96), with the random tape threaded through. -/
def multLeft (s : List U32) : List (List U32) → List U32 → Res (List U32 × List U32)
  | [], tape => .ok ([], tape)
  | col :: cols, tape => do
    let sa ← vecMult s col
    let (e, tape) ← randomTernary tape
    let (rest, tape) ← multLeft s cols tape
    .ok ((sa + e) :: rest, tape)

/-! ## Key-value database -/

/-- `struct KeyValue` (src/db/kv.rs:17-20). -/
structure KeyValue where
  key : Key
  value : List U32
  deriving DecidableEq, Repr

/-- `construct_row` of the key-value database (src/db/kv.rs:245-263). -/
def kvConstructRow (prof : Profile) (element : List Char) (plaintextBits elemSize : Nat) :
    Res (List U32) := do
  let rowWidth ← getRowWidth elemSize plaintextBits
  let bytes ← b64Decode element
  mapRes (rowDigit prof (bytesToBitsLe bytes) plaintextBits) (List.range rowWidth)

/-- `KeyValue::from_base64_strings` (src/db/kv.rs:23-32). -/
def KeyValue.fromBase64Strings (prof : Profile) (sha : Sha) (k : List U8) (v : List Char)
    (elemSize plaintextBits : Nat) : Res KeyValue := do
  let key ← sha256IntoU64Sized sha k
  let value ← kvConstructRow prof v plaintextBits elemSize
  .ok { key := key, value := value }

/-- `struct FilterParams` (src/db/kv.rs:85-90). -/
structure FilterParams where
  seed : List U8
  geom : Geom
  deriving DecidableEq, Repr

/-- `FilterParams::get_hash_evals` (src/db/kv.rs:92-100). -/
def FilterParams.getHashEvals (prof : Profile) (fp : FilterParams) (key : Key) : Res (List Nat) :=
  BinaryFuseP32.hashEval prof key fp.seed fp.geom

/-- `FilterParams::unmask_value` (src/db/kv.rs:102-108). -/
def FilterParams.unmaskValue (fp : FilterParams) (masked : U32) (key : Key) (label : U64) :
    Res U32 := do
  let f ← BinaryFuseP32.getKeyFingerprint key fp.seed label
  .ok (masked + f.setWidth 32)

/-- `2u64.pow(plaintext_bits as u32)` (src/db/kv.rs:61). -/
def pow2U64 (prof : Profile) (plaintextBits : Nat) : Res U64 :=
  let e := plaintextBits % 2 ^ 32
  if e < 64 then .ok (BitVec.ofNat 64 (2 ^ e))
  else match prof with
    | .debug => .panic
    | .release => .ok 0#64

/-- The per-column closure of `StorageFilters::from_kvs` (src/db/kv.rs:54-64). `fp0 i` is the random
initial content of the fingerprint array of column `i`. -/
def columnFilter (prof : Profile) (segExp cap0 : Nat) (fp0 : Nat → Nat → U32) (seed : List U8)
    (kvs : List KeyValue) (plaintextBits i : Nat) : Res BinaryFuseP32 := do
  let column ← mapRes (fun kv => rd kv.value i) kvs
  let p ← pow2U64 prof plaintextBits
  (BinaryFuseP32.fromSlice prof segExp cap0 (fp0 i) seed (kvs.map (·.key)) column
    (BitVec.ofNat 64 i) p).unwrap

/-- `StorageFilters::from_kvs` (src/db/kv.rs:45-73): the filters, and the geometry of the first. -/
def storageFiltersFromKvs (prof : Profile) (segExp cap0 : Nat) (fp0 : Nat → Nat → U32)
    (seed : List U8) (kvs : List KeyValue) (rowWidth plaintextBits : Nat) :
    Res (List BinaryFuseP32 × Geom) := do
  let filters ← mapRes (columnFilter prof segExp cap0 fp0 seed kvs plaintextBits)
    (List.range rowWidth)
  let f0 ← rd filters 0
  .ok (filters, f0.geom)

/-- `struct KVDatabase` (src/db/kv.rs:112-118). -/
structure KVDatabase where
  entries : List (List U32)
  m : Nat
  elemSize : Nat
  plaintextBits : Nat
  filterParams : FilterParams
  deriving DecidableEq, Repr

/-- `KVDatabase::new` (src/db/kv.rs:121-142), with `StorageFilters::get_columns`
(src/db/kv.rs:75-81). -/
def KVDatabase.new (prof : Profile) (segExp cap0 : Nat) (fp0 : Nat → Nat → U32) (seed : List U8)
    (kvs : List KeyValue) (m elemSize plaintextBits : Nat) : Res KVDatabase := do
  let kv0 ← rd kvs 0
  let (filters, geom) ← storageFiltersFromKvs prof segExp cap0 fp0 seed kvs kv0.value.length
    plaintextBits
  let columns ← mapRes BinaryFuseP32.getFingerprintsMod filters
  .ok { entries := columns, m := m, elemSize := elemSize, plaintextBits := plaintextBits,
        filterParams := { seed := seed, geom := geom } }

/-- The collection of `Result`s into `Result<Vec<_>>` in `KVDatabase::from_base64_strings`
(src/db/kv.rs:161-172). All elements are evaluated before errors are looked at, so a panic of any
element wins over an error of another. -/
def collectEager {α β : Type} (f : α → Res β) : List α → Res (List β)
  | [] => .ok []
  | a :: as =>
    match f a, collectEager f as with
    | .panic, _ => .panic
    | .diverge, _ => .diverge
    | .err _, .panic => .panic
    | .err _, .diverge => .diverge
    | .err e, _ => .err e
    | .ok _, .err e => .err e
    | .ok _, .panic => .panic
    | .ok _, .diverge => .diverge
    | .ok b, .ok bs => .ok (b :: bs)

/-- `KVDatabase::from_base64_strings` (src/db/kv.rs:144-180). -/
def KVDatabase.fromBase64Strings (prof : Profile) (sha : Sha) (segExp cap0 : Nat)
    (fp0 : Nat → Nat → U32) (seed : List U8) (keys : List (List U8)) (values : List (List Char))
    (m elemSize plaintextBits : Nat) : Res KVDatabase :=
  if keys.length ≠ values.length then .err .kvCountMismatch
  else
    match collectEager (fun kv : List U8 × List Char =>
        KeyValue.fromBase64Strings prof sha kv.1 kv.2 elemSize plaintextBits)
        (keys.zip values) with
    | .ok kvs => KVDatabase.new prof segExp cap0 fp0 seed kvs m elemSize plaintextBits
    | .err _ => .err .kvConstruct
    | .panic => .panic
    | .diverge => .diverge

/-- `KVDatabase::vec_mult` (src/db/kv.rs:192-194). -/
def KVDatabase.vecMult (db : KVDatabase) (row : List U32) (colIdx : Nat) : Res U32 := do
  let col ← rd db.entries colIdx
  (Chalamet.vecMult row col).unwrap

/-- `KVDatabase::get_matrix_height` (src/db/kv.rs:230-232). -/
def KVDatabase.getMatrixHeight (db : KVDatabase) : Res Nat := do
  let col ← rd db.entries 0
  .ok col.length

/-- `impl DatabaseMatrix for KVDatabase` (src/db/kv.rs:187-243). -/
instance : DatabaseMatrix KVDatabase where
  vecMult := KVDatabase.vecMult
  getMatrixHeight := KVDatabase.getMatrixHeight
  getElemSize db := db.elemSize             -- src/db/kv.rs:235-237
  getPlaintextBits db := db.plaintextBits   -- src/db/kv.rs:240-242

/-- `KVDatabase::switch_fmt` (src/db/kv.rs:188-190). -/
def KVDatabase.switchFmt (db : KVDatabase) : Res KVDatabase := do
  let entries ← swapMatrixFmt db.entries
  .ok { db with entries := entries }

/-- `KVDatabase::get_row` (src/db/kv.rs:202-204). -/
def KVDatabase.getRow (db : KVDatabase) (i : Nat) : Res (List U32) := rd db.entries i

/-- `KVDatabase::get_db_entry` (src/db/kv.rs:207-213). -/
def KVDatabase.getDbEntry (prof : Profile) (db : KVDatabase) (i : Nat) : Res (List Char) := do
  let row ← getMatrixSecondAt db.entries i
  base64FromU32Slice prof row db.plaintextBits db.elemSize

/-- `KVDatabase::get_row_width_self` (src/db/kv.rs:225-227). -/
def KVDatabase.getRowWidthSelf (db : KVDatabase) : Res Nat :=
  getRowWidth db.elemSize db.plaintextBits

/-- `struct KVParams` (src/db/kv.rs:268-276). -/
structure KVParams where
  dim : Nat
  m : Nat
  publicSeed : List U8
  rhs : List (List U32)
  elemSize : Nat
  plaintextBits : Nat
  filterParams : FilterParams
  deriving DecidableEq, Repr

/-- `KVParams::new` (src/db/kv.rs:278-301), called with the filter parameters of the database
(src/api.rs:128-141, 188-201). -/
def KVParams.new (prg : Prg) (publicSeed : List U8) (db : KVDatabase) (dim : Nat) :
    Res KVParams := do
  let rhs ← generateParamsRhs prg db publicSeed dim
  let height ← db.getMatrixHeight
  .ok { dim := dim, m := height, publicSeed := publicSeed, rhs := rhs,
        elemSize := db.elemSize, plaintextBits := db.plaintextBits,
        filterParams := db.filterParams }

end Chalamet
