import Verif.Model.Files
import Verif.Model.Bincode

/-!
# Serialised databases, parameters, queries and shards

`Shard`, `KVShard`, `IndexDatabase`, `KVDatabase`, `CommonParams`, `KeyValue`, `Query` and `Response` derive serde's
`Serialize` and `Deserialize` (as the parameter types of `Model/Files.lean` do). The two formats the crate depends on are
modelled (Cargo.toml:21, 23): JSON documents (`serde_json`) and `bincode` 1.3 with the default options of `bincode::serialize` and
`bincode::deserialize`: integers of fixed width, little-endian; a sequence is its length as a `u64` and its elements; an array
`[T; n]` and a struct are their elements and fields in order; `Option` is a byte 0 or a byte 1 and the value; `bool` is a byte 0 or 1;
`PhantomData` and empty structs take no bytes; trailing bytes are allowed. Reader errors (end of input, a byte that is no tag) are
all `.err .bincode`. Strings (`EncodedKV`) are modelled in JSON only.
-/

namespace Chalamet

/-! ## JSON -/

/-- `#[derive(Serialize)]` of `IndexDatabase` (src/db/index.rs:13-19). -/
def IndexDatabase.toJson (d : IndexDatabase) : Json :=
  .obj [("entries", jMatrix d.entries), ("m", jNat d.m), ("elem_size", jNat d.elemSize),
    ("plaintext_bits", jNat d.plaintextBits)]

/-- The fields of `IndexDatabase`, decoded (src/db/index.rs:13-19). -/
def IndexDatabase.ofFields : List (Option Json) → Res IndexDatabase
  | [a, b, c, d] => do
    let entries ← req (decList (decList decU32)) a
    let m ← req decUsize b
    let elemSize ← req decUsize c
    let plaintextBits ← req decUsize d
    .ok { entries := entries, m := m, elemSize := elemSize, plaintextBits := plaintextBits }
  | _ => .err .json

/-- `#[derive(Deserialize)]` of `IndexDatabase` (src/db/index.rs:13-19). -/
def IndexDatabase.fromJson (j : Json) : Res IndexDatabase :=
  structFields ["entries", "m", "elem_size", "plaintext_bits"] j >>= IndexDatabase.ofFields

/-- `#[derive(Serialize)]` of `KVDatabase` (src/db/kv.rs:111-118). -/
def KVDatabase.toJson (d : KVDatabase) : Json :=
  .obj [("entries", jMatrix d.entries), ("m", jNat d.m), ("elem_size", jNat d.elemSize),
    ("plaintext_bits", jNat d.plaintextBits), ("filter_params", d.filterParams.toJson)]

/-- The fields of `KVDatabase`, decoded (src/db/kv.rs:111-118). -/
def KVDatabase.ofFields : List (Option Json) → Res KVDatabase
  | [a, b, c, d, e] => do
    let entries ← req (decList (decList decU32)) a
    let m ← req decUsize b
    let elemSize ← req decUsize c
    let plaintextBits ← req decUsize d
    let fp ← req FilterParams.fromJson e
    .ok { entries := entries, m := m, elemSize := elemSize, plaintextBits := plaintextBits, filterParams := fp }
  | _ => .err .json

/-- `#[derive(Deserialize)]` of `KVDatabase` (src/db/kv.rs:111-118). -/
def KVDatabase.fromJson (j : Json) : Res KVDatabase :=
  structFields ["entries", "m", "elem_size", "plaintext_bits", "filter_params"] j >>= KVDatabase.ofFields

/-- `#[derive(Serialize)]` of `Shard` (src/api.rs:21-25). -/
def Shard.toJson (s : Shard) : Json :=
  .obj [("db", s.db.toJson), ("base_params", s.baseParams.toJson)]

/-- The fields of `Shard`, decoded (src/api.rs:21-25). -/
def Shard.ofFields : List (Option Json) → Res Shard
  | [a, b] => do
    let db ← req IndexDatabase.fromJson a
    let bp ← req IndexParams.fromJson b
    .ok { db := db, baseParams := bp }
  | _ => .err .json

/-- `#[derive(Deserialize)]` of `Shard` (src/api.rs:21-25). -/
def Shard.fromJson (j : Json) : Res Shard := structFields ["db", "base_params"] j >>= Shard.ofFields

/-- `#[derive(Serialize)]` of `KVShard` (src/api.rs:112-116). -/
def KVShard.toJson (s : KVShard) : Json :=
  .obj [("db", s.db.toJson), ("base_params", s.baseParams.toJson)]

/-- The fields of `KVShard`, decoded (src/api.rs:112-116). -/
def KVShard.ofFields : List (Option Json) → Res KVShard
  | [a, b] => do
    let db ← req KVDatabase.fromJson a
    let bp ← req KVParams.fromJson b
    .ok { db := db, baseParams := bp }
  | _ => .err .json

/-- `#[derive(Deserialize)]` of `KVShard` (src/api.rs:112-116). -/
def KVShard.fromJson (j : Json) : Res KVShard := structFields ["db", "base_params"] j >>= KVShard.ofFields

/-! ## bincode: values -/

/-- The type of readers: a value and the bytes that were not read
(`bincode::deserialize`, called at src/api.rs:501, benches/bench.rs:238). -/
abbrev BDec (α : Type) := List U8 → Res (α × List U8)

/-- Reading an integer of `w` bytes
(fields of src/db/index.rs:13-19, src/db/kv.rs:84-90). -/
def rNat (w : Nat) : BDec Nat := fun l =>
  if l.length < w then .err .bincode else .ok (natFromLeBytes (l.take w), l.drop w)

/-- Reading a `u32` (src/db/index.rs:15, src/db/kv.rs:87-89, src/api.rs:251-252). -/
def rU32 : BDec U32 := fun l => do
  let (x, l) ← rNat 4 l
  .ok (BitVec.ofNat 32 x, l)

/-- Reading a `u64` (src/db/kv.rs:18). -/
def rU64 : BDec U64 := fun l => do
  let (x, l) ← rNat 8 l
  .ok (BitVec.ofNat 64 x, l)

/-- Reading a `u8` (src/db/index.rs:125, src/db/kv.rs:86). -/
def rU8 : BDec U8 := fun l => do
  let (x, l) ← rNat 1 l
  .ok (BitVec.ofNat 8 x, l)

/-- Reading `n` values: the elements of a sequence or of an array `[T; n]`
(src/db/index.rs:15, 125, src/db/kv.rs:18). -/
def rMany {α : Type} (dec : BDec α) : Nat → BDec (List α)
  | 0 => fun l => .ok ([], l)
  | n + 1 => fun l => do
    let (a, l) ← dec l
    let (as, l) ← rMany dec n l
    .ok (a :: as, l)

/-- Reading a `Vec<T>` (src/db/index.rs:15, src/db/mod.rs:78, src/api.rs:251-252, 453, 462). -/
def rVec {α : Type} (dec : BDec α) : BDec (List α) := fun l => do
  let (n, l) ← rNat 8 l
  rMany dec n l

/-- Reading a `bool` (src/api.rs:257): any byte but 0 and 1 is an error. -/
def rBool : BDec Bool := fun l => do
  let (x, l) ← rNat 1 l
  if x = 0 then .ok (false, l) else if x = 1 then .ok (true, l) else .err .bincode

/-- Reading an `Option<T>` (src/api.rs:256): the tag is 0 or 1. -/
def rOption {α : Type} (dec : BDec α) : BDec (Option α) := fun l => do
  let (x, l) ← rNat 1 l
  if x = 0 then .ok (none, l)
  else if x = 1 then
    match dec l with
    | .ok (a, l) => .ok (some a, l)
    | .err e => .err e
    | .panic => .panic
    | .diverge => .diverge
  else .err .bincode

/-- Writing a `usize` or `u64` (src/db/index.rs:16-18, 123-124). -/
def bUsize (x : Nat) : List U8 := natToLeBytes 8 x

/-- Writing a `u32` (src/db/index.rs:15). -/
def bU32 (x : U32) : List U8 := natToLeBytes 4 x.toNat

/-- Writing a `u64` (src/db/kv.rs:18). -/
def bU64 (x : U64) : List U8 := natToLeBytes 8 x.toNat

/-- Writing a `Vec<T>` (src/db/index.rs:15, src/db/mod.rs:78, src/api.rs:251-252, 453, 462). -/
def bVec {α : Type} (enc : α → List U8) (l : List α) : List U8 := natToLeBytes 8 l.length ++ l.flatMap enc

/-- Writing a matrix (src/db/index.rs:15, src/db/mod.rs:78). -/
def bMatrix (l : List (List U32)) : List U8 := bVec (bVec bU32) l

/-- Reading a matrix (src/db/index.rs:15, src/db/mod.rs:78). -/
def rMatrix : BDec (List (List U32)) := rVec (rVec rU32)

/-- Writing a `bool` (src/api.rs:257). -/
def bBool (b : Bool) : List U8 := [if b then 1#8 else 0#8]

/-- Writing an `Option<T>` (src/api.rs:256). -/
def bOption {α : Type} (enc : α → List U8) : Option α → List U8
  | none => [0#8]
  | some a => 1#8 :: enc a

/-! ## bincode: structures -/

/-- Writing `FilterParams` (src/db/kv.rs:84-90). -/
def FilterParams.toBytes (p : FilterParams) : List U8 :=
  p.seed ++ bU32 p.geom.segmentLength ++ bU32 p.geom.segmentLengthMask ++ bU32 p.geom.segmentCountLength

/-- Reading `FilterParams` (src/db/kv.rs:84-90). -/
def FilterParams.ofBytes : BDec FilterParams := fun l => do
  let (seed, l) ← rMany rU8 32 l
  let (sl, l) ← rU32 l
  let (mask, l) ← rU32 l
  let (scl, l) ← rU32 l
  .ok ({ seed := seed, geom := { segmentLength := sl, segmentLengthMask := mask, segmentCountLength := scl } }, l)

/-- Writing `IndexDatabase` (src/db/index.rs:13-19). -/
def IndexDatabase.toBytes (d : IndexDatabase) : List U8 :=
  bMatrix d.entries ++ bUsize d.m ++ bUsize d.elemSize ++ bUsize d.plaintextBits

/-- Reading `IndexDatabase` (src/db/index.rs:13-19). -/
def IndexDatabase.ofBytes : BDec IndexDatabase := fun l => do
  let (entries, l) ← rMatrix l
  let (m, l) ← rNat 8 l
  let (elemSize, l) ← rNat 8 l
  let (plaintextBits, l) ← rNat 8 l
  .ok ({ entries := entries, m := m, elemSize := elemSize, plaintextBits := plaintextBits }, l)

/-- Writing `IndexParams` (src/db/index.rs:121-129). -/
def IndexParams.toBytes (p : IndexParams) : List U8 :=
  bUsize p.dim ++ bUsize p.m ++ p.publicSeed ++ bMatrix p.rhs ++ bUsize p.elemSize ++ bUsize p.plaintextBits

/-- Reading `IndexParams` (src/db/index.rs:121-129). -/
def IndexParams.ofBytes : BDec IndexParams := fun l => do
  let (dim, l) ← rNat 8 l
  let (m, l) ← rNat 8 l
  let (seed, l) ← rMany rU8 32 l
  let (rhs, l) ← rMatrix l
  let (elemSize, l) ← rNat 8 l
  let (plaintextBits, l) ← rNat 8 l
  .ok ({ dim := dim, m := m, publicSeed := seed, rhs := rhs, elemSize := elemSize, plaintextBits := plaintextBits }, l)

/-- Writing `KVDatabase` (src/db/kv.rs:111-118). -/
def KVDatabase.toBytes (d : KVDatabase) : List U8 :=
  bMatrix d.entries ++ bUsize d.m ++ bUsize d.elemSize ++ bUsize d.plaintextBits ++ d.filterParams.toBytes

/-- Reading `KVDatabase` (src/db/kv.rs:111-118). -/
def KVDatabase.ofBytes : BDec KVDatabase := fun l => do
  let (entries, l) ← rMatrix l
  let (m, l) ← rNat 8 l
  let (elemSize, l) ← rNat 8 l
  let (plaintextBits, l) ← rNat 8 l
  let (fp, l) ← FilterParams.ofBytes l
  .ok ({ entries := entries, m := m, elemSize := elemSize, plaintextBits := plaintextBits, filterParams := fp }, l)

/-- Writing `KVParams` (src/db/kv.rs:267-276). -/
def KVParams.toBytes (p : KVParams) : List U8 :=
  bUsize p.dim ++ bUsize p.m ++ p.publicSeed ++ bMatrix p.rhs ++ bUsize p.elemSize ++ bUsize p.plaintextBits ++
    p.filterParams.toBytes

/-- Reading `KVParams` (src/db/kv.rs:267-276). -/
def KVParams.ofBytes : BDec KVParams := fun l => do
  let (dim, l) ← rNat 8 l
  let (m, l) ← rNat 8 l
  let (seed, l) ← rMany rU8 32 l
  let (rhs, l) ← rMatrix l
  let (elemSize, l) ← rNat 8 l
  let (plaintextBits, l) ← rNat 8 l
  let (fp, l) ← FilterParams.ofBytes l
  .ok ({ dim := dim, m := m, publicSeed := seed, rhs := rhs, elemSize := elemSize, plaintextBits := plaintextBits,
         filterParams := fp }, l)

/-- Writing `Shard` (src/api.rs:21-25). -/
def Shard.toBytes (s : Shard) : List U8 := s.db.toBytes ++ s.baseParams.toBytes

/-- Reading `Shard` (src/api.rs:21-25). -/
def Shard.ofBytes : BDec Shard := fun l => do
  let (db, l) ← IndexDatabase.ofBytes l
  let (bp, l) ← IndexParams.ofBytes l
  .ok ({ db := db, baseParams := bp }, l)

/-- Writing `KVShard` (src/api.rs:112-116). -/
def KVShard.toBytes (s : KVShard) : List U8 := s.db.toBytes ++ s.baseParams.toBytes

/-- Reading `KVShard` (src/api.rs:112-116). -/
def KVShard.ofBytes : BDec KVShard := fun l => do
  let (db, l) ← KVDatabase.ofBytes l
  let (bp, l) ← KVParams.ofBytes l
  .ok ({ db := db, baseParams := bp }, l)

/-- Writing `QueryParams` (src/api.rs:249-258). -/
def QueryParams.toBytes {EP : Type} (enc : EP → List U8) (q : QueryParams EP) : List U8 :=
  bVec bU32 q.lhs ++ bVec bU32 q.rhs ++ bUsize q.elemSize ++ bUsize q.plaintextBits ++ bOption enc q.extraParams ++ bBool q.used

/-- Reading `QueryParams` (src/api.rs:249-258). -/
def QueryParams.ofBytes {EP : Type} (dec : BDec EP) : BDec (QueryParams EP) := fun l => do
  let (lhs, l) ← rVec rU32 l
  let (rhs, l) ← rVec rU32 l
  let (elemSize, l) ← rNat 8 l
  let (plaintextBits, l) ← rNat 8 l
  let (extra, l) ← rOption dec l
  let (used, l) ← rBool l
  .ok ({ lhs := lhs, rhs := rhs, elemSize := elemSize, plaintextBits := plaintextBits, extraParams := extra, used := used }, l)

/-- Reading `EmptyAuxParams` (src/api.rs:469-470): no bytes. -/
def rUnit : BDec Unit := fun l => .ok ((), l)

/-- Writing `EmptyAuxParams` (src/api.rs:469-470): no bytes. -/
def bUnit (_ : Unit) : List U8 := []

/-- Writing `KeyValue` (src/db/kv.rs:16-20): the key is an array `[u64; 4]`. -/
def KeyValue.toBytes (kv : KeyValue) : List U8 := kv.key.flatMap bU64 ++ bVec bU32 kv.value

/-- Reading `KeyValue` (src/db/kv.rs:16-20). -/
def KeyValue.ofBytes : BDec KeyValue := fun l => do
  let (key, l) ← rMany rU64 4 l
  let (value, l) ← rVec rU32 l
  .ok ({ key := key, value := value }, l)

/-- `bincode::deserialize`: a value, whatever follows
(src/api.rs:501, benches/bench.rs:238). -/
def bincodeDe {α : Type} (dec : BDec α) (l : List U8) : Res α := do
  let (a, _) ← dec l
  .ok a

end Chalamet
