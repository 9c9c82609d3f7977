import Verif.Model.Api

/-!
# Model of the project's own tests

The `#[test]` functions of src/api.rs, src/db/kv.rs and of the filters. A test passes if it returns; a failing assertion, an
`unwrap` of an error and a panic of the tested code are all `panic`. Random bytes and words are parameters. The sizes that are
literals in the tests are parameters here, and the theorems about the tests fix them.
-/

namespace Chalamet

/-- `assert!(c)` (for instance src/api.rs:581). -/
def assertTrue (c : Bool) : Res Unit := if c then .ok () else .panic

/-- `assert_eq!(x, y)` (for instance src/api.rs:503). -/
def assertEq {α : Type} [DecidableEq α] (x y : α) : Res Unit := if x = y then .ok () else .panic

/-- `for i in l { body }`, where the body has no effect but asserting (for instance src/api.rs:495). -/
def forRes {α : Type} (l : List α) (body : α → Res Unit) : Res Unit := foldRes (fun _ a => body a) () l

/-- `Result::is_ok` on a result that was returned; a panic propagates (src/api.rs:581). -/
def Res.returnedOk {α : Type} : Res α → Res Bool
  | .ok _ => .ok true
  | .err _ => .ok false
  | .panic => .panic
  | .diverge => .diverge

/-- `Result::is_err` (src/api.rs:588). -/
def Res.returnedErr {α : Type} : Res α → Res Bool
  | .ok _ => .ok false
  | .err _ => .ok true
  | .panic => .panic
  | .diverge => .diverge

/-! ## src/api.rs -/

/-- `generate_db_eles` (src/api.rs:592-601): `num` strings, the `i`-th encoding the next `len` random bytes. -/
def testDbEles (ent : Nat → U8) (num len : Nat) : List (List Char) :=
  (List.range num).map fun i => b64Encode ((List.range len).map fun k => ent (i * len + k))

/-- `generate_kv_db_elems` (src/api.rs:603-618): 32 random bytes for a key, then `len` for its value. -/
def testKvElems (ent : Nat → U8) (num len : Nat) : List (List Char × List Char) :=
  (List.range num).map fun i =>
    (b64Encode ((List.range 32).map fun k => ent (i * (32 + len) + k)),
     b64Encode ((List.range len).map fun k => ent (i * (32 + len) + 32 + k)))

/-- The loop body of `client_query_to_server_10_times` (src/api.rs:496-503). -/
def testIndexBody (prof : Profile) (prg : Prg) (shard : Shard) (eles : List (List Char)) (tape : List U32) (i : Nat) :
    Res Unit := do
  let bp := shard.baseParams
  let cp := commonParamsFrom prg bp.publicSeed bp.dim bp.m
  let (qp, _) ← (generateIndexQueryParams cp bp tape).unwrap
  let r := qp.generateIndexQuery prof i
  let q ← r.2.unwrap
  let dResp ← (shard.respond q).unwrap
  let resp ← (bincodeDeserialize dResp).unwrap
  let output ← r.1.parseIndexBase64 prof resp
  let want ← rd eles i
  assertEq output want

/-- `client_query_to_server_10_times` (src/api.rs:478-505); there `m = 4096`, `lweDim = 512`, `elemSize = 256`,
`plaintextBits = 11` and `count = 10`. The `i`-th query draws its randomness from `tapes i`. -/
def testIndex (prof : Profile) (prg : Prg) (ent : Nat → U8) (seed : List U8) (tapes : Nat → List U32)
    (m lweDim elemSize plaintextBits count : Nat) : Res Unit := do
  let eles := testDbEles ent m ((elemSize + 7) / 8)
  let shard ← (Shard.fromBase64Strings prof prg seed eles lweDim m elemSize plaintextBits).unwrap
  forRes (List.range count) fun i => testIndexBody prof prg shard eles (tapes i) i

/-- `client_query_to_server_attempt_params_reuse` (src/api.rs:561-590); there `m = 64`, `lweDim = 512`, `elemSize = 256`,
`plaintextBits = 10`. -/
def testReuse (prof : Profile) (prg : Prg) (ent : Nat → U8) (seed : List U8) (tape : List U32)
    (m lweDim elemSize plaintextBits : Nat) : Res Unit := do
  let eles := testDbEles ent m ((elemSize + 7) / 8)
  let shard ← (Shard.fromBase64Strings prof prg seed eles lweDim m elemSize plaintextBits).unwrap
  let bp := shard.baseParams
  let cp := commonParamsFrom prg bp.publicSeed bp.dim bp.m
  let (qp, _) ← (generateIndexQueryParams cp bp tape).unwrap
  let r := qp.generateIndexQuery prof 0
  let ok ← r.2.returnedOk
  let _ ← assertTrue ok
  let _ ← assertTrue r.1.used
  let r2 := r.1.generateIndexQuery prof 0
  let err ← r2.2.returnedErr
  assertTrue err

/-- One assertion about a pair and a column in `client_kv_query_to_server_10_times` and `db_check_consistent_retrieval`
(src/api.rs:534-543, src/db/kv.rs:409-417): add the cells the key points to, unmask, reduce, compare. `want` is the value
stored in column `j`. -/
def testKvCell (prof : Profile) (db : KVDatabase) (plaintextBits : Nat) (key : Key) (want : U32) (j : Nat) (col : List Nat) :
    Res Unit := do
  let masked ← foldRes (fun (acc : U32) r => do
    let entry ← rd db.entries j
    let x ← rd entry r
    .ok (acc + x)) 0#32 col
  let unmasked ← db.filterParams.unmaskValue masked key (BitVec.ofNat 64 j)
  let p ← getPlaintextSize prof plaintextBits
  let y ← modPlain unmasked p
  assertEq want y

/-- The checks on one pair (src/api.rs:530-544). -/
def testKvPair (prof : Profile) (db : KVDatabase) (plaintextBits : Nat) (kv : KeyValue) : Res Unit := do
  let v ← mapRes (fun _ => db.filterParams.getHashEvals prof kv.key) (List.range db.entries.length)
  forRes (List.range v.length) fun j => do
    let col ← rd v j
    let want ← rd kv.value j
    testKvCell prof db plaintextBits kv.key want j col

/-- The loop body of `client_kv_query_to_server_10_times` (src/api.rs:549-558). -/
def testKvBody (prof : Profile) (prg : Prg) (shard : KVShard) (kvs : List KeyValue) (tape : List U32) (i : Nat) :
    Res Unit := do
  let bp := shard.baseParams
  let cp := commonParamsFrom prg bp.publicSeed bp.dim bp.m
  let (qp, _) ← (generateKvQueryParams cp bp tape).unwrap
  let kv ← rd kvs i
  let r := qp.generateKvQuery prof kv.key
  let q ← r.2.unwrap
  let dResp ← (shard.respond q).unwrap
  let resp ← (bincodeDeserialize dResp).unwrap
  let output ← (r.1.parseKvRow prof resp kv.key).unwrap
  assertEq output kv.value

/-- `client_kv_query_to_server_10_times` (src/api.rs:507-559); there `m = 4096`, `lweDim = 512`, `elemSize = 256`,
`plaintextBits = 11` and `count = 10`. `utf8` is `str::as_bytes`. -/
def testKv (prof : Profile) (sha : Sha) (prg : Prg) (utf8 : List Char → List U8) (ent : Nat → U8) (seed : List U8)
    (segExp cap0 : Nat) (fp0 : Nat → Nat → U32) (filterSeed : List U8) (tapes : Nat → List U32)
    (m lweDim elemSize plaintextBits count : Nat) : Res Unit := do
  let eles := testKvElems ent m ((elemSize + 7) / 8)
  let kvs ← (collectEager (fun e => KeyValue.fromBase64Strings prof sha (utf8 e.1) e.2 elemSize plaintextBits) eles).unwrap
  let shard ← (KVShard.new prof prg seed segExp cap0 fp0 filterSeed kvs lweDim m elemSize plaintextBits).unwrap
  let _ ← forRes kvs (testKvPair prof shard.db plaintextBits)
  forRes (List.range count) fun i => testKvBody prof prg shard kvs (tapes i) i

/-! ## src/db/kv.rs -/

/-- `check_consistent_retrieval` (src/db/kv.rs:337-351); there `key = [1, 2, 3, 4]`, `value = [1, 2, 3]` and
`plaintextBits = 10`. -/
def testRetrieval (prof : Profile) (segExp cap0 : Nat) (fp0 : Nat → Nat → U32) (filterSeed : List U8) (kv : KeyValue)
    (plaintextBits : Nat) : Res Unit := do
  let rowWidth := kv.value.length
  let (filters, _) ← (storageFiltersFromKvs prof segExp cap0 fp0 filterSeed [kv] rowWidth plaintextBits).unwrap
  forRes (List.range rowWidth) fun i => do
    let f ← rd filters i
    let x ← f.retrieve kv.key (BitVec.ofNat 64 i)
    let want ← rd kv.value i
    assertEq x want

/-- The comparisons `assert_eq!(v[0], v[i])` (src/db/kv.rs:375-377, 406-408, 447-449). -/
def testSame (v : List (List Nat)) (len : Nat) : Res Unit :=
  forRes ((List.range len).tail) fun i => do
    let x ← rd v 0
    let y ← rd v i
    assertEq x y

/-- `check_consistent_hashes` (src/db/kv.rs:353-378). -/
def testHashes (prof : Profile) (segExp cap0 : Nat) (fp0 : Nat → Nat → U32) (filterSeed : List U8) (kv : KeyValue)
    (plaintextBits : Nat) : Res Unit := do
  let rowWidth := kv.value.length
  let (_, geom) ← (storageFiltersFromKvs prof segExp cap0 fp0 filterSeed [kv] rowWidth plaintextBits).unwrap
  let v ← mapRes (fun _ => BinaryFuseP32.hashEval prof kv.key filterSeed geom) (List.range rowWidth)
  testSame v rowWidth

/-- `db_check_consistent_retrieval` (src/db/kv.rs:380-418). -/
def testDbRetrieval (prof : Profile) (segExp cap0 : Nat) (fp0 : Nat → Nat → U32) (filterSeed : List U8) (kv : KeyValue)
    (plaintextBits : Nat) : Res Unit := do
  let len := kv.value.length
  let db ← (KVDatabase.new prof segExp cap0 fp0 filterSeed [kv] 1 (plaintextBits * len) plaintextBits).unwrap
  let v ← mapRes (fun _ => BinaryFuseP32.hashEval prof kv.key db.filterParams.seed db.filterParams.geom) (List.range len)
  let _ ← testSame v len
  forRes (List.range v.length) fun i => do
    let col ← rd v i
    let want ← rd kv.value i
    testKvCell prof db plaintextBits kv.key want i col

/-- `attempt_actual_mult` (src/db/kv.rs:420-459): the query vector has a one at each slot of the key. -/
def testMult (prof : Profile) (segExp cap0 : Nat) (fp0 : Nat → Nat → U32) (filterSeed : List U8) (kv : KeyValue)
    (plaintextBits : Nat) : Res Unit := do
  let len := kv.value.length
  let db ← (KVDatabase.new prof segExp cap0 fp0 filterSeed [kv] 1 (plaintextBits * len) plaintextBits).unwrap
  let height ← db.getMatrixHeight
  let v ← mapRes (fun _ => BinaryFuseP32.hashEval prof kv.key db.filterParams.seed db.filterParams.geom) (List.range len)
  let _ ← testSame v len
  let v0 ← rd v 0
  let multV ← foldRes (fun (u : List U32) idx => wr u idx 1#32) (List.replicate height 0#32) v0
  forRes (List.range (min len v.length)) fun i => do
    let want ← rd kv.value i
    let masked ← db.vecMult multV i
    let unmasked ← db.filterParams.unmaskValue masked kv.key (BitVec.ofNat 64 i)
    let p ← getPlaintextSize prof plaintextBits
    let y ← modPlain unmasked p
    assertEq y want

/-! ## bff-modp -/

/-- `test_initialization` of `BinaryFuse8/16/32` (bff-modp/src/bfuse8.rs:112-123, bfuse16.rs:112-123, bfuse32.rs:113-124; there
a million random keys) and `test_build_failure_with_subtraction_overflow` (bfuse8.rs:162-167; there one random key). -/
def testBinaryFuse (w : Nat) (prof : Profile) (segExp cap0 : Nat) (fp0 : Nat → BitVec w) (keys : List U64) : Res Unit := do
  let filter ← (BinaryFuse.tryFrom w prof segExp cap0 fp0 keys).unwrap
  forRes keys fun key => do
    let c ← filter.contains key
    assertTrue c

/-- `test_initialization` of `BinaryFuseP32` (bff-modp/src/bfusep32.rs:119-135); there a million keys of four equal random words,
`data i = i mod 1024`, `label = 1` and `ptxtMod = 1024`. -/
def testFilterRetrieve (prof : Profile) (segExp cap0 : Nat) (fp0 : Nat → U32) (seed : List U8) (keys : List Key)
    (data : List U32) (label ptxtMod : U64) : Res Unit := do
  let filter ← (BinaryFuseP32.fromSlice prof segExp cap0 fp0 seed keys data label ptxtMod).unwrap
  forRes (List.range keys.length) fun i => do
    let want ← rd data i
    let key ← rd keys i
    let x ← filter.retrieve key label
    assertEq want x

/-- `test_hashes` of `BinaryFuseP32` (bff-modp/src/bfusep32.rs:137-156): the same with the client's formula. -/
def testFilterHashes (prof : Profile) (segExp cap0 : Nat) (fp0 : Nat → U32) (seed : List U8) (keys : List Key)
    (data : List U32) (label ptxtMod : U64) : Res Unit := do
  let filter ← (BinaryFuseP32.fromSlice prof segExp cap0 fp0 seed keys data label ptxtMod).unwrap
  forRes (List.range keys.length) fun i => do
    let key ← rd keys i
    let h ← BinaryFuseP32.hashEval prof key seed filter.geom
    let entry ← foldRes (fun (acc : U32) r => do
      let x ← rd filter.fingerprints r
      .ok (acc + x)) 0#32 h
    let mask ← BinaryFuseP32.getKeyFingerprint key seed label
    let want ← rd data i
    let y ← modPlain (entry + mask.setWidth 32) (filter.ptxtMod.setWidth 32)
    assertEq want y

end Chalamet
