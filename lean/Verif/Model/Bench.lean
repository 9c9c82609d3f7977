import Verif.Model.Api

/-!
# Model of what the benchmarks do beyond the API

`QueryParams::used` is a public field: a caller can write it, and the benchmarks do.
-/

namespace Chalamet

/-- Assignment to the public field `used` (src/api.rs:257, benches/bench.rs:209, 301). -/
def QueryParams.setUsed {EP : Type} (qp : QueryParams EP) (b : Bool) : QueryParams EP :=
  { qp with used := b }

/-- What a caller can do with one object that involves the flag: ask for a query, or write the flag
(src/api.rs:257, 276, 348). -/
inductive ClientOp (K : Type) where
  | ask (k : K)
  | setUsed (b : Bool)

/-- A sequence of such operations on one object; `gen` is its `generate_query` (src/api.rs:276-294 or 348-364).
The outcomes of the calls (with what was asked), and the object at the end. A call that panics also leaves an object behind
(the caller may catch the panic). -/
def runOps {EP K : Type} (gen : QueryParams EP → K → QueryParams EP × Res (List U32)) :
    QueryParams EP → List (ClientOp K) → List (K × Res (List U32)) × QueryParams EP
  | qp, [] => ([], qp)
  | qp, .ask k :: ops =>
    let r := gen qp k
    let rest := runOps gen r.1 ops
    ((k, r.2) :: rest.1, rest.2)
  | qp, .setUsed b :: ops => runOps gen (qp.setUsed b) ops

/-- `n` iterations of `_qp.used = false; _qp.generate_query(idx).unwrap();`
(benches/bench.rs:208-211, 300-303). -/
def benchPrepare {EP K : Type} (gen : QueryParams EP → K → QueryParams EP × Res (List U32)) (k : K) :
    Nat → QueryParams EP → Res (QueryParams EP)
  | 0, qp => .ok qp
  | n + 1, qp => do
    let r := gen (qp.setUsed false) k
    let _ ← r.2.unwrap
    benchPrepare gen k n r.1

/-- `bench_utils::generate_db_eles` (benches/bench.rs:341-350): `num` strings, the `i`-th encoding the next
`len` bytes of the random source `ent`. -/
def benchDbEles (ent : Nat → U8) (num len : Nat) : List (List Char) :=
  (List.range num).map fun i => b64Encode ((List.range len).map fun k => ent (i * len + k))

/-- `bench_utils::generate_kv_db_elems` (benches/bench.rs:352-367): each pair takes 32 bytes for the key, then
`len` bytes for the value. -/
def benchKvElems (ent : Nat → U8) (num len : Nat) : List (List Char × List Char) :=
  (List.range num).map fun i =>
    (b64Encode ((List.range 32).map fun k => ent (i * (32 + len) + k)),
     b64Encode ((List.range len).map fun k => ent (i * (32 + len) + 32 + k)))

/-- A `Result` that is dropped: only panics and non-termination matter (benches/bench.rs:195, 287: the closure returns the
`Result` to the benchmark runner). -/
def Res.dropErr {α : Type} : Res α → Res Unit
  | .ok _ => .ok ()
  | .err _ => .ok ()
  | .panic => .panic
  | .diverge => .diverge

/-- How often the benchmark runner calls each closure: the runner (criterion) decides, so any numbers are possible
(benches/bench.rs:194-247, 286-341). -/
structure BenchIters where
  params : Nat
  prepare : Nat
  respond : Nat
  parse : Nat

/-- `_bench_client_query` (benches/bench.rs:174-250): the strings parsed by the last benchmark. `tape` is the randomness of the
first call of `generate_index_query_params`, `tapes i` that of the `i`-th call in the first benchmark. Labels and printing are
dropped. -/
def benchClientQuery (prof : Profile) (prg : Prg) (shard : Shard) (tape : List U32) (tapes : Nat → List U32)
    (it : BenchIters) : Res (List (List Char)) := do
  let bp := shard.baseParams
  let cp := commonParamsFrom prg bp.publicSeed bp.dim bp.m
  let _ ← shard.db.getRowWidthSelf
  let (qp, _) ← (generateIndexQueryParams cp bp tape).unwrap
  let r := qp.generateIndexQuery prof 10
  let q ← r.2.unwrap
  let resp ← (shard.respond q).unwrap
  let _ ← mapRes (fun i => (generateIndexQueryParams cp bp (tapes i)).dropErr) (List.range it.params)
  let qp ← benchPrepare (QueryParams.generateIndexQuery prof) 10 it.prepare r.1
  let _ ← mapRes (fun _ => (shard.respond q).unwrap) (List.range it.respond)
  mapRes (fun _ => do
    let deser ← (bincodeDeserialize resp).unwrap
    qp.parseIndexBase64 prof deser) (List.range it.parse)

/-- `_bench_db_generation` (benches/bench.rs:83-124): the shards built in the loop, with the public seeds `seeds i`. -/
def benchDbGeneration (prof : Profile) (prg : Prg) (shard : Shard) (seeds : Nat → List U8) (eles : List (List Char))
    (n : Nat) : Res (List Shard) := do
  let _ ← shard.db.getRowWidthSelf
  mapRes (fun i => (Shard.fromBase64Strings prof prg (seeds i) eles shard.baseParams.dim shard.db.m shard.db.elemSize
    shard.db.plaintextBits).unwrap) (List.range n)

/-- The index branch of `criterion_benchmark` (benches/bench.rs:58-78); `gen` is the number of iterations of the offline
benchmark if the flag `offline` is set. The sum `elem_size + 7` is taken in `Nat`. -/
def benchIndexMain (prof : Profile) (prg : Prg) (ent : Nat → U8) (seed : List U8) (tape : List U32) (tapes : Nat → List U32)
    (seeds : Nat → List U8) (m lweDim elemSize plaintextBits : Nat) (it : BenchIters) (gen : Option Nat) :
    Res (List (List Char)) := do
  let eles := benchDbEles ent m ((elemSize + 7) / 8)
  let shard ← (Shard.fromBase64Strings prof prg seed eles lweDim m elemSize plaintextBits).unwrap
  let strs ← benchClientQuery prof prg shard tape tapes it
  match gen with
  | none => .ok strs
  | some n => do
    let _ ← benchDbGeneration prof prg shard seeds eles n
    .ok strs

/-- `_bench_client_kv_query` (benches/bench.rs:252-338), for a key given as bytes. -/
def benchClientKvQuery (prof : Profile) (sha : Sha) (prg : Prg) (shard : KVShard) (keyword : List U8) (value : List Char)
    (tape : List U32) (tapes : Nat → List U32) (it : BenchIters) : Res (List (List Char)) := do
  let bp := shard.baseParams
  let kv ← (KeyValue.fromBase64Strings prof sha keyword value bp.elemSize bp.plaintextBits).unwrap
  let cp := commonParamsFrom prg bp.publicSeed bp.dim bp.m
  let _ ← shard.db.getRowWidthSelf
  let (qp, _) ← (generateKvQueryParams cp bp tape).unwrap
  let r := qp.generateKvQuery prof kv.key
  let q ← r.2.unwrap
  let resp ← (shard.respond q).unwrap
  let _ ← mapRes (fun i => (generateKvQueryParams cp bp (tapes i)).dropErr) (List.range it.params)
  let qp ← benchPrepare (QueryParams.generateKvQuery prof) kv.key it.prepare r.1
  let _ ← mapRes (fun _ => (shard.respond q).unwrap) (List.range it.respond)
  mapRes (fun _ => do
    let deser ← (bincodeDeserialize resp).unwrap
    (qp.parseKvBase64 prof deser kv.key).unwrap) (List.range it.parse)

/-- `_bench_kv_db_generation` (benches/bench.rs:126-172): the `i`-th iteration draws the public seed `seeds i`, the filter seed
`fseeds i` and the initial contents `fps i`. The height of the matrix is passed as the number of records. -/
def benchKvDbGeneration (prof : Profile) (sha : Sha) (prg : Prg) (shard : KVShard) (segExp cap0 : Nat)
    (seeds fseeds : Nat → List U8) (fps : Nat → Nat → Nat → U32) (keywords : List (List U8)) (values : List (List Char))
    (n : Nat) : Res (List KVShard) := do
  let _ ← shard.db.getRowWidthSelf
  let height ← shard.db.getMatrixHeight
  mapRes (fun i => (KVShard.fromBase64Strings prof sha prg (seeds i) segExp cap0 (fps i) (fseeds i) keywords values
    shard.baseParams.dim height shard.db.elemSize shard.db.plaintextBits).unwrap) (List.range n)

/-- The keyword branch of `criterion_benchmark` (benches/bench.rs:29-57). `utf8` is `str::as_bytes`; `keys[0]` and `values[0]`
panic for `m = 0`. -/
def benchKvMain (prof : Profile) (sha : Sha) (prg : Prg) (utf8 : List Char → List U8) (ent : Nat → U8) (seed : List U8)
    (segExp cap0 : Nat) (fp0 : Nat → Nat → U32) (filterSeed : List U8) (tape : List U32) (tapes : Nat → List U32)
    (seeds fseeds : Nat → List U8) (fps : Nat → Nat → Nat → U32) (m lweDim elemSize plaintextBits : Nat) (it : BenchIters)
    (gen : Option Nat) : Res (List (List Char)) := do
  let elems := benchKvElems ent m ((elemSize + 7) / 8)
  let keywords := elems.map fun e => utf8 e.1
  let values := elems.map fun e => e.2
  let shard ← (KVShard.fromBase64Strings prof sha prg seed segExp cap0 fp0 filterSeed keywords values lweDim m elemSize
    plaintextBits).unwrap
  let k0 ← rd keywords 0
  let v0 ← rd values 0
  let strs ← benchClientKvQuery prof sha prg shard k0 v0 tape tapes it
  match gen with
  | none => .ok strs
  | some n => do
    let _ ← benchKvDbGeneration prof sha prg shard segExp cap0 seeds fseeds fps keywords values n
    .ok strs

end Chalamet
