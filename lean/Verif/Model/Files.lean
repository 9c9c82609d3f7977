import Verif.Model.Api

/-!
# Model of the persistence and JSON code

`write_to_file` of databases, parameters and shards, `IndexParams::load`, `IndexDatabase::from_file`,
`Shard::from_json_file`, `KVShard::from_json_file`, and the serde `Serialize`/`Deserialize` derives of the
structures a client and a server exchange.

`serde_json` is modelled at the level of JSON trees: a file holds a JSON document or text that is not JSON
(`raw`); texts are in `Model/JsonText.lean`. Numbers are integers or `float` (any number with a fraction
or exponent, which no decoder of this crate accepts). All decoding errors are `Err.json`.

The file system is a map from paths to contents; what the operating system does (create fails, a write
fails midway and leaves a truncated file) is an explicit argument of every call.
-/

namespace Chalamet

/-- A JSON document (`serde_json::Value`).
As read at src/db/index.rs:47, 146, src/api.rs:40, 158 and written at src/db/mod.rs:52-56. -/
inductive Json where
  | null
  | bool (b : Bool)
  | num (n : Int)
  | float
  | str (s : List Char)
  | arr (l : List Json)
  | obj (fields : List (String × Json))

/-! ## Encoders (serde `Serialize`) -/

/-- Serialisation of an unsigned integer.
Fields of the structures of src/db/index.rs:121-129, src/db/kv.rs:84-90, src/api.rs:249-258. -/
def jNat (n : Nat) : Json := .num n

/-- Serialisation of a `Vec<u32>`
(src/api.rs:251-252). -/
def jU32s (l : List U32) : Json := .arr (l.map fun x => jNat x.toNat)

/-- Serialisation of a `Vec<Vec<u32>>`: `json!(self.entries)` (src/db/index.rs:68, src/db/kv.rs:197). -/
def jMatrix (l : List (List U32)) : Json := .arr (l.map jU32s)

/-- Serialisation of a `[u8; 32]`
(src/db/index.rs:125, src/db/kv.rs:86). -/
def jBytes (l : List U8) : Json := .arr (l.map fun x => jNat x.toNat)

/-- `BaseParams::write_to_file`'s document (src/db/mod.rs:52-55). -/
def paramsFileJson (publicSeed : List U8) (rhs : List (List U32)) : Json :=
  .obj [("lhs_seed", jBytes publicSeed), ("rhs", jMatrix rhs)]

/-- `#[derive(Serialize)]` of `IndexParams` (src/db/index.rs:121-129). -/
def IndexParams.toJson (p : IndexParams) : Json :=
  .obj [("dim", jNat p.dim), ("m", jNat p.m), ("public_seed", jBytes p.publicSeed),
    ("rhs", jMatrix p.rhs), ("elem_size", jNat p.elemSize), ("plaintext_bits", jNat p.plaintextBits)]

/-- `#[derive(Serialize)]` of `FilterParams` (src/db/kv.rs:84-90). -/
def FilterParams.toJson (p : FilterParams) : Json :=
  .obj [("seed", jBytes p.seed), ("segment_length", jNat p.geom.segmentLength.toNat),
    ("segment_length_mask", jNat p.geom.segmentLengthMask.toNat),
    ("segment_count_length", jNat p.geom.segmentCountLength.toNat)]

/-- `#[derive(Serialize)]` of `KVParams` (src/db/kv.rs:267-276). -/
def KVParams.toJson (p : KVParams) : Json :=
  .obj [("dim", jNat p.dim), ("m", jNat p.m), ("public_seed", jBytes p.publicSeed),
    ("rhs", jMatrix p.rhs), ("elem_size", jNat p.elemSize), ("plaintext_bits", jNat p.plaintextBits),
    ("filter_params", p.filterParams.toJson)]

/-- Serialisation of an `Option`
(src/api.rs:256). -/
def jOption {α : Type} (enc : α → Json) : Option α → Json
  | none => .null
  | some a => enc a

/-- `#[derive(Serialize)]` of `QueryParams` (src/api.rs:249-258); `PhantomData` is `null`. -/
def QueryParams.toJson {EP : Type} (enc : EP → Json) (q : QueryParams EP) : Json :=
  .obj [("lhs", jU32s q.lhs), ("rhs", jU32s q.rhs), ("elem_size", jNat q.elemSize),
    ("plaintext_bits", jNat q.plaintextBits), ("db", .null),
    ("extra_params", jOption enc q.extraParams), ("used", .bool q.used)]

/-- `#[derive(Serialize)]` of `EmptyAuxParams` (src/api.rs:469-470). -/
def emptyAuxToJson (_ : Unit) : Json := .obj []

/-! ## Decoders (serde `Deserialize`) -/

/-- Deserialisation of an unsigned integer type with the given bound.
Fields of the structures of src/db/index.rs:121-129, src/db/kv.rs:84-90, src/api.rs:249-258. -/
def decNat (bound : Nat) : Json → Res Nat
  | .num n => if 0 ≤ n ∧ n < bound then .ok n.toNat else .err .json
  | _ => .err .json

/-- Deserialisation of a `usize` (64-bit target)
(src/db/index.rs:123-124). -/
def decUsize : Json → Res Nat := decNat (2 ^ 64)

/-- Deserialisation of a `u32`
(src/db/kv.rs:87-89, src/api.rs:251-252). -/
def decU32 (j : Json) : Res U32 := do
  let n ← decNat (2 ^ 32) j
  .ok (BitVec.ofNat 32 n)

/-- Deserialisation of a `u8`
(src/db/index.rs:125). -/
def decU8 (j : Json) : Res U8 := do
  let n ← decNat (2 ^ 8) j
  .ok (BitVec.ofNat 8 n)

/-- Deserialisation of a `Vec<T>`
(src/db/index.rs:47, src/api.rs:40, 158, 251-252). -/
def decList {α : Type} (dec : Json → Res α) : Json → Res (List α)
  | .arr l => mapRes dec l
  | _ => .err .json

/-- Deserialisation of a `[u8; 32]`
(src/db/index.rs:125, src/db/kv.rs:86). -/
def decSeed (j : Json) : Res (List U8) := do
  let l ← decList decU8 j
  if l.length = 32 then .ok l else .err .json

/-- Deserialisation of a `String`
(src/db/index.rs:47, src/api.rs:40). -/
def decString : Json → Res (List Char)
  | .str s => .ok s
  | _ => .err .json

/-- Deserialisation of a `bool`
(src/api.rs:257). -/
def decBool : Json → Res Bool
  | .bool b => .ok b
  | _ => .err .json

/-- Deserialisation of `PhantomData` (`null`)
(src/api.rs:255). -/
def decNull : Json → Res Unit
  | .null => .ok ()
  | _ => .err .json

/-- Deserialisation of an `Option`
(src/api.rs:256). -/
def decOption {α : Type} (dec : Json → Res α) : Json → Res (Option α)
  | .null => .ok none
  | j => dec j >>= fun a => .ok (some a)

/-- The fields of a derived struct: an object without repeated known fields (unknown fields are ignored,
absent ones are `none`), or an array with exactly the fields in order
(derives at src/db/index.rs:121, src/db/kv.rs:84, 267, src/api.rs:102, 249). -/
def structFields (names : List String) : Json → Res (List (Option Json))
  | .obj kvs =>
    if names.any (fun n => decide (1 < (kvs.filter fun kv => kv.1 = n).length)) then .err .json
    else .ok (names.map fun n => (kvs.find? fun kv => kv.1 = n).map (·.2))
  | .arr js => if js.length = names.length then .ok (js.map some) else .err .json
  | _ => .err .json

/-- A required field
(derives at src/db/index.rs:121, src/db/kv.rs:84, 267, src/api.rs:102, 249). -/
def req {α : Type} (dec : Json → Res α) : Option Json → Res α
  | some j => dec j
  | none => .err .json

/-- An `Option` field: absent means `None`
(src/api.rs:256). -/
def opt {α : Type} (dec : Json → Res α) : Option Json → Res (Option α)
  | some j => decOption dec j
  | none => .ok none

/-- The fields of `IndexParams`, decoded (src/db/index.rs:121-129). -/
def IndexParams.ofFields : List (Option Json) → Res IndexParams
  | [a, b, c, d, e, f] => do
    let dim ← req decUsize a
    let m ← req decUsize b
    let publicSeed ← req decSeed c
    let rhs ← req (decList (decList decU32)) d
    let elemSize ← req decUsize e
    let plaintextBits ← req decUsize f
    .ok { dim := dim, m := m, publicSeed := publicSeed, rhs := rhs, elemSize := elemSize,
          plaintextBits := plaintextBits }
  | _ => .err .json

/-- `#[derive(Deserialize)]` of `IndexParams` (src/db/index.rs:121-129). -/
def IndexParams.fromJson (j : Json) : Res IndexParams :=
  structFields ["dim", "m", "public_seed", "rhs", "elem_size", "plaintext_bits"] j >>=
    IndexParams.ofFields

/-- The fields of `FilterParams`, decoded (src/db/kv.rs:84-90). -/
def FilterParams.ofFields : List (Option Json) → Res FilterParams
  | [a, b, c, d] => do
    let seed ← req decSeed a
    let sl ← req decU32 b
    let mask ← req decU32 c
    let scl ← req decU32 d
    .ok { seed := seed, geom := { segmentLength := sl, segmentLengthMask := mask,
                                  segmentCountLength := scl } }
  | _ => .err .json

/-- `#[derive(Deserialize)]` of `FilterParams` (src/db/kv.rs:84-90). -/
def FilterParams.fromJson (j : Json) : Res FilterParams :=
  structFields ["seed", "segment_length", "segment_length_mask", "segment_count_length"] j >>=
    FilterParams.ofFields

/-- The fields of `KVParams`, decoded (src/db/kv.rs:267-276). -/
def KVParams.ofFields : List (Option Json) → Res KVParams
  | [a, b, c, d, e, f, g] => do
    let dim ← req decUsize a
    let m ← req decUsize b
    let publicSeed ← req decSeed c
    let rhs ← req (decList (decList decU32)) d
    let elemSize ← req decUsize e
    let plaintextBits ← req decUsize f
    let fp ← req FilterParams.fromJson g
    .ok { dim := dim, m := m, publicSeed := publicSeed, rhs := rhs, elemSize := elemSize,
          plaintextBits := plaintextBits, filterParams := fp }
  | _ => .err .json

/-- `#[derive(Deserialize)]` of `KVParams` (src/db/kv.rs:267-276). -/
def KVParams.fromJson (j : Json) : Res KVParams :=
  structFields ["dim", "m", "public_seed", "rhs", "elem_size", "plaintext_bits", "filter_params"] j >>=
    KVParams.ofFields

/-- `#[derive(Deserialize)]` of `EmptyAuxParams` (src/api.rs:469-470). -/
def emptyAuxFromJson (j : Json) : Res Unit := do
  let _ ← structFields [] j
  .ok ()

/-- The fields of `QueryParams`, decoded (src/api.rs:249-258). -/
def QueryParams.ofFields {EP : Type} (dec : Json → Res EP) : List (Option Json) → Res (QueryParams EP)
  | [a, b, c, d, e, f, g] => do
    let lhs ← req (decList decU32) a
    let rhs ← req (decList decU32) b
    let elemSize ← req decUsize c
    let plaintextBits ← req decUsize d
    let _ ← req decNull e
    let extra ← opt dec f
    let used ← req decBool g
    .ok { lhs := lhs, rhs := rhs, elemSize := elemSize, plaintextBits := plaintextBits,
          extraParams := extra, used := used }
  | _ => .err .json

/-- `#[derive(Deserialize)]` of `QueryParams` (src/api.rs:249-258). -/
def QueryParams.fromJson {EP : Type} (dec : Json → Res EP) (j : Json) : Res (QueryParams EP) :=
  structFields ["lhs", "rhs", "elem_size", "plaintext_bits", "db", "extra_params", "used"] j >>=
    QueryParams.ofFields dec

/-- The fields of `EncodedKV`, decoded (src/api.rs:101-105): key and value. -/
def encodedKVOfFields : List (Option Json) → Res (List Char × List Char)
  | [a, b] => do
    let k ← req decString a
    let v ← req decString b
    .ok (k, v)
  | _ => .err .json

/-- `#[derive(Deserialize)]` of `EncodedKV` (src/api.rs:101-105). -/
def decEncodedKV (j : Json) : Res (List Char × List Char) :=
  structFields ["key", "value"] j >>= encodedKVOfFields

/-! ## Files -/

/-- Contents of a file: a JSON document, or bytes that are not one
(`fs::read_to_string`, src/db/index.rs:46, src/api.rs:39, 157; `to_writer`, src/db/mod.rs:56). -/
inductive Content where
  | json (j : Json)
  | raw (bytes : List U8)

/-- A path.
The `path`, `db_file`, `file_path` arguments (src/db/index.rs:41, 67, src/api.rs:32). -/
abbrev Path := List Char

/-- The file system
(src/db/index.rs:46, 69, 145, src/db/mod.rs:56). -/
abbrev FS := Path → Option Content

/-- What the operating system does during one `File::create` followed by `to_writer`: the file cannot be
created; a write fails (or the process dies) after `partialText` was written; everything succeeds
(src/db/mod.rs:56, src/db/index.rs:69, src/db/kv.rs:198). -/
inductive WriteEvent where
  | createFails
  | writeFails (partialText : List U8)
  | succeeds

/-- `FS` with one file replaced
(src/db/mod.rs:56, src/db/index.rs:69, src/db/kv.rs:198). -/
def FS.put (fs : FS) (path : Path) (c : Content) : FS := fun p => if p = path then some c else fs p

/-- `serde_json::to_writer(&fs::File::create(path)?, &json)?` (src/db/mod.rs:56, src/db/index.rs:69,
src/db/kv.rs:198): the file system afterwards and the outcome. `create` truncates an existing file. -/
def writeJson (ev : WriteEvent) (fs : FS) (path : Path) (j : Json) : FS × Res Unit :=
  match ev with
  | .createFails => (fs, .err .io)
  | .writeFails t => (fs.put path (.raw t), .err .json)
  | .succeeds => (fs.put path (.json j), .ok ())

/-- Two writes, the second only if the first succeeded (`?`): `Shard::write_to_file`
(src/api.rs:59-67) and `KVShard::write_to_file` (src/api.rs:206-214). -/
def writeTwo (ev₁ ev₂ : WriteEvent) (fs : FS) (dbPath paramsPath : Path) (dbDoc paramsDoc : Json) :
    FS × Res Unit :=
  match writeJson ev₁ fs dbPath dbDoc with
  | (fs, .ok ()) => writeJson ev₂ fs paramsPath paramsDoc
  | (fs, r) => (fs, r)

/-- `Shard::write_to_file` (src/api.rs:59-67). -/
def Shard.writeToFile (ev₁ ev₂ : WriteEvent) (fs : FS) (s : Shard) (dbPath paramsPath : Path) :
    FS × Res Unit :=
  writeTwo ev₁ ev₂ fs dbPath paramsPath (jMatrix s.db.entries)
    (paramsFileJson s.baseParams.publicSeed s.baseParams.rhs)

/-- `KVShard::write_to_file` (src/api.rs:206-214). -/
def KVShard.writeToFile (ev₁ ev₂ : WriteEvent) (fs : FS) (s : KVShard) (dbPath paramsPath : Path) :
    FS × Res Unit :=
  writeTwo ev₁ ev₂ fs dbPath paramsPath (jMatrix s.db.entries)
    (paramsFileJson s.baseParams.publicSeed s.baseParams.rhs)

/-- Opening and parsing a file as JSON; `readable` is the operating system's decision
(src/db/index.rs:145-146). -/
def readJson (readable : Bool) (fs : FS) (path : Path) : Res Json :=
  match readable, fs path with
  | true, some (.json j) => .ok j
  | true, some (.raw _) => .err .json
  | _, _ => .err .io

/-- `IndexParams::load` (src/db/index.rs:144-147). -/
def IndexParams.load (readable : Bool) (fs : FS) (path : Path) : Res IndexParams := do
  let j ← readJson readable fs path
  IndexParams.fromJson j

/-- `IndexDatabase::from_file` (src/db/index.rs:40-49). -/
def IndexDatabase.fromFile (prof : Profile) (readable : Bool) (fs : FS) (path : Path)
    (m elemSize plaintextBits : Nat) : Res IndexDatabase := do
  let j ← readJson readable fs path
  let elements ← decList decString j
  IndexDatabase.new prof elements m elemSize plaintextBits

/-- `Shard::from_json_file` (src/api.rs:31-43): reading and parsing are `unwrap`ped. -/
def Shard.fromJsonFile (prof : Profile) (prg : Prg) (publicSeed : List U8) (readable : Bool) (fs : FS)
    (path : Path) (lweDim m elemSize plaintextBits : Nat) : Res Shard := do
  let elements ← (readJson readable fs path >>= decList decString).unwrap
  Shard.fromBase64Strings prof prg publicSeed elements lweDim m elemSize plaintextBits

/-- `KVShard::from_json_file` (src/api.rs:149-171). `utf8` is `str::as_bytes`. -/
def KVShard.fromJsonFile (prof : Profile) (prg : Prg) (publicSeed : List U8) (sha : Sha)
    (utf8 : List Char → List U8) (segExp cap0 : Nat) (fp0 : Nat → Nat → U32) (filterSeed : List U8)
    (readable : Bool) (fs : FS) (path : Path) (lweDim m elemSize plaintextBits : Nat) :
    Res KVShard := do
  let kvs ← (readJson readable fs path >>= decList decEncodedKV).unwrap
  KVShard.fromBase64Strings prof sha prg publicSeed segExp cap0 fp0 filterSeed
    (kvs.map fun kv => utf8 kv.1) (kvs.map (·.2)) lweDim m elemSize plaintextBits

end Chalamet
