import Verif.Model.Db
import Verif.Model.Bincode

/-!
# Model of `src/api.rs`

`Query` and `Response` (src/api.rs:453, 462) are their `Vec<u32>`; serialisation of a response is in
`Verif/Model/Bincode.lean`.
-/

namespace Chalamet

/-! ## Server -/

/-- `struct Shard` (src/api.rs:22-25). -/
structure Shard where
  db : IndexDatabase
  baseParams : IndexParams
  deriving DecidableEq, Repr

/-- `Shard::from_base64_strings` (src/api.rs:46-56). -/
def Shard.fromBase64Strings (prof : Profile) (prg : Prg) (publicSeed : List U8)
    (strs : List (List Char)) (lweDim m elemSize plaintextBits : Nat) : Res Shard := do
  let db ← IndexDatabase.new prof strs m elemSize plaintextBits
  let bp ← IndexParams.new prg publicSeed db lweDim
  .ok { db := db, baseParams := bp }

/-- The response vector before serialisation (src/api.rs:73-77). -/
def Shard.answer (s : Shard) (q : List U32) : Res (List U32) := do
  let w ← s.db.getRowWidthSelf
  mapRes (fun i => s.db.vecMult q i) (List.range w)

/-- `Shard::respond` (src/api.rs:71-81). -/
def Shard.respond (s : Shard) (q : List U32) : Res (List U8) := do
  let resp ← s.answer q
  .ok (bincodeSerialize resp)

/-- `Shard::into_row_iter` (src/api.rs:93-98): the list of strings it iterates over. -/
def Shard.rowIter (prof : Profile) (s : Shard) : Res (List (List Char)) :=
  mapRes (fun i => s.db.getDbEntry prof i) (List.range s.db.m)

/-- `struct KVShard` (src/api.rs:113-116). -/
structure KVShard where
  db : KVDatabase
  baseParams : KVParams
  deriving DecidableEq, Repr

/-- `KVShard::new` (src/api.rs:120-143). -/
def KVShard.new (prof : Profile) (prg : Prg) (publicSeed : List U8) (segExp cap0 : Nat)
    (fp0 : Nat → Nat → U32) (filterSeed : List U8) (kvs : List KeyValue)
    (lweDim m elemSize plaintextBits : Nat) : Res KVShard := do
  let db ← KVDatabase.new prof segExp cap0 fp0 filterSeed kvs m elemSize plaintextBits
  let bp ← KVParams.new prg publicSeed db lweDim
  .ok { db := db, baseParams := bp }

/-- `KVShard::from_base64_strings` (src/api.rs:173-203). -/
def KVShard.fromBase64Strings (prof : Profile) (sha : Sha) (prg : Prg) (publicSeed : List U8)
    (segExp cap0 : Nat) (fp0 : Nat → Nat → U32) (filterSeed : List U8)
    (keys : List (List U8)) (values : List (List Char))
    (lweDim m elemSize plaintextBits : Nat) : Res KVShard := do
  let db ← KVDatabase.fromBase64Strings prof sha segExp cap0 fp0 filterSeed keys values m elemSize
    plaintextBits
  let bp ← KVParams.new prg publicSeed db lweDim
  .ok { db := db, baseParams := bp }

/-- The response vector before serialisation (src/api.rs:219-223). -/
def KVShard.answer (s : KVShard) (q : List U32) : Res (List U32) := do
  let w ← s.db.getRowWidthSelf
  mapRes (fun i => s.db.vecMult q i) (List.range w)

/-- `KVShard::respond` (src/api.rs:218-227). -/
def KVShard.respond (s : KVShard) (q : List U32) : Res (List U8) := do
  let resp ← s.answer q
  .ok (bincodeSerialize resp)

/-- `KVShard::into_row_iter` (src/api.rs:239-244): the list of strings it iterates over. -/
def KVShard.rowIter (prof : Profile) (s : KVShard) : Res (List (List Char)) := do
  let h ← s.db.getMatrixHeight
  mapRes (fun i => s.db.getDbEntry prof i) (List.range h)

/-! ## Client -/

/-- `struct QueryParams<DB, EP>` (src/api.rs:250-258); the phantom field is dropped. -/
structure QueryParams (EP : Type) where
  lhs : List U32
  rhs : List U32
  elemSize : Nat
  plaintextBits : Nat
  extraParams : Option EP
  used : Bool
  deriving DecidableEq, Repr

/-- `QueryParams<IndexDatabase, EmptyAuxParams>::new` / `generate_index_query_params`
(src/api.rs:262-273, 434-439); returns the rest of the random tape too. -/
def generateIndexQueryParams (cp : List (List U32)) (params : IndexParams) (tape : List U32) :
    Res (QueryParams Unit × List U32) := do
  let (s, tape) ← randomTernaryVector params.dim tape
  let (lhs, tape) ← multLeft s cp tape
  let rhs ← multRight params.rhs s
  .ok ({ lhs := lhs, rhs := rhs, elemSize := params.elemSize,
         plaintextBits := params.plaintextBits, extraParams := none, used := false }, tape)

/-- `QueryParams<KVDatabase, FilterParams>::new` / `generate_kv_query_params`
(src/api.rs:334-345, 442-447). -/
def generateKvQueryParams (cp : List (List U32)) (params : KVParams) (tape : List U32) :
    Res (QueryParams FilterParams × List U32) := do
  let (s, tape) ← randomTernaryVector params.dim tape
  let (lhs, tape) ← multLeft s cp tape
  let rhs ← multRight params.rhs s
  .ok ({ lhs := lhs, rhs := rhs, elemSize := params.elemSize,
         plaintextBits := params.plaintextBits, extraParams := some params.filterParams,
         used := false }, tape)

/-- Body of the index `generate_query` after the `used` flag is set (src/api.rs:284-293). -/
def indexQueryBody (prof : Profile) (qp : QueryParams Unit) (rowIndex : Nat) :
    Res (List U32) := do
  let d ← getRoundingFactor prof qp.plaintextBits
  let x ← rd qp.lhs rowIndex
  if x.toNat + d.toNat < 2 ^ 32 then wr qp.lhs rowIndex (x + d)
  else .err .overflownAdd

/-- `QueryParams<IndexDatabase, _>::generate_query` (src/api.rs:276-294): the object after the call
(also when the call fails or panics) and the outcome. -/
def QueryParams.generateIndexQuery (prof : Profile) (qp : QueryParams Unit) (rowIndex : Nat) :
    QueryParams Unit × Res (List U32) :=
  if qp.used then (qp, .err .queryParamsReused)
  else ({ qp with used := true }, indexQueryBody prof qp rowIndex)

/-- `for row_index in indices { lhs[row_index] = lhs[row_index].wrapping_add(..) }`
(src/api.rs:360-362). -/
def addAtStep (d : U32) (lhs : List U32) (rowIndex : Nat) : Res (List U32) := do
  let x ← rd lhs rowIndex
  wr lhs rowIndex (x + d)

/-- Body of the keyword `generate_query` after the `used` flag is set (src/api.rs:353-363). -/
def kvQueryBody (prof : Profile) (qp : QueryParams FilterParams) (key : Key) :
    Res (List U32) := do
  let d ← getRoundingFactor prof qp.plaintextBits
  match qp.extraParams with
  | none => .err .noFilterParams
  | some fp => do
    let indices ← fp.getHashEvals prof key
    foldRes (addAtStep d) qp.lhs indices

/-- `QueryParams<KVDatabase, FilterParams>::generate_query` (src/api.rs:348-364). -/
def QueryParams.generateKvQuery (prof : Profile) (qp : QueryParams FilterParams) (key : Key) :
    QueryParams FilterParams × Res (List U32) :=
  if qp.used then (qp, .err .queryParamsReused)
  else ({ qp with used := true }, kvQueryBody prof qp key)

/-- Division and rounding of one coordinate (src/api.rs:306-314, 387-395); division by zero panics.
`rounded_res += 1` cannot overflow for `rounding_factor > 1` and is checked otherwise. -/
def roundCoord (prof : Profile) (factor floor left right : U32) : Res U32 :=
  let unscaled := left - right
  if factor = 0#32 then .panic
  else
    let scaled := unscaled / factor
    let rem := unscaled % factor
    if rem > floor then addC prof scaled 1#32 else .ok scaled

/-- `x % plaintext_size`, which panics for 0 (src/api.rs:315, 398). -/
def modPlain (x p : U32) : Res U32 := if p = 0#32 then .panic else .ok (x % p)

/-- `QueryParams<IndexDatabase, _>::parse_resp_as_row` (src/api.rs:297-318). -/
def QueryParams.parseIndexRow (prof : Profile) (qp : QueryParams Unit) (resp : List U32) :
    Res (List U32) := do
  let factor ← getRoundingFactor prof qp.plaintextBits
  let floor ← getRoundingFloor prof qp.plaintextBits
  let p ← getPlaintextSize prof qp.plaintextBits
  let w ← getRowWidth qp.elemSize qp.plaintextBits
  mapRes (fun i => do
    let left ← rd resp i
    let right ← rd qp.rhs i
    let r ← roundCoord prof factor floor left right
    modPlain r p) (List.range w)

/-- `parse_resp_as_bytes` (src/api.rs:321-324). -/
def QueryParams.parseIndexBytes (prof : Profile) (qp : QueryParams Unit) (resp : List U32) :
    Res (List U8) := do
  let row ← qp.parseIndexRow prof resp
  bytesFromU32Slice prof row qp.plaintextBits qp.elemSize

/-- `parse_resp_as_base64` (src/api.rs:327-330). -/
def QueryParams.parseIndexBase64 (prof : Profile) (qp : QueryParams Unit) (resp : List U32) :
    Res (List Char) := do
  let row ← qp.parseIndexRow prof resp
  base64FromU32Slice prof row qp.plaintextBits qp.elemSize

/-- `QueryParams<KVDatabase, FilterParams>::parse_resp_as_row` (src/api.rs:367-402). -/
def QueryParams.parseKvRow (prof : Profile) (qp : QueryParams FilterParams) (resp : List U32)
    (key : Key) : Res (List U32) := do
  let factor ← getRoundingFactor prof qp.plaintextBits
  let floor ← getRoundingFloor prof qp.plaintextBits
  let p ← getPlaintextSize prof qp.plaintextBits
  match qp.extraParams with
  | none => .err .noFilterParams
  | some fp => do
    let w ← getRowWidth qp.elemSize qp.plaintextBits
    mapRes (fun i => do
      let left ← rd resp i
      let right ← rd qp.rhs i
      let r ← roundCoord prof factor floor left right
      let u ← fp.unmaskValue r key (BitVec.ofNat 64 i)
      modPlain u p) (List.range w)

/-- `parse_resp_as_bytes` (src/api.rs:405-416). -/
def QueryParams.parseKvBytes (prof : Profile) (qp : QueryParams FilterParams) (resp : List U32)
    (key : Key) : Res (List U8) := do
  let row ← qp.parseKvRow prof resp key
  bytesFromU32Slice prof row qp.plaintextBits qp.elemSize

/-- `parse_resp_as_base64` (src/api.rs:419-430). -/
def QueryParams.parseKvBase64 (prof : Profile) (qp : QueryParams FilterParams) (resp : List U32)
    (key : Key) : Res (List Char) := do
  let row ← qp.parseKvRow prof resp key
  base64FromU32Slice prof row qp.plaintextBits qp.elemSize

end Chalamet
