import Verif.Model.Api
import Verif.Model.Fuse

/-!
# The model with a counter

The same functions, with a counter that records work: either multiplications of the matrix arithmetic, or passes of the
retry loop of the key-value filter. `Props/Cost.lean` proves that dropping the counter gives back the model.
-/

namespace Chalamet

/-- An outcome and the work done to reach it (counted also when the outcome is an error or a panic); see src/utils.rs:72-87
and bff-modp/src/prelude/bfusep.rs:77-192 for what is counted. -/
abbrev Counted (α : Type) := Res α × Nat

/-- Sequencing adds the work (`?` and statement order, as for `Res.bind`; src/db/index.rs:46-48). -/
def Counted.bind {α β : Type} (x : Counted α) (f : α → Counted β) : Counted β :=
  match x.1 with
  | .ok a => ((f a).1, x.2 + (f a).2)
  | .err e => (.err e, x.2)
  | .panic => (.panic, x.2)
  | .diverge => (.diverge, x.2)

/-- A step that does none of the counted work (for instance the read at src/db/index.rs:60). -/
def Counted.free {α : Type} (r : Res α) : Counted α := (r, 0)

/-- `mapRes` with the counter (for instance src/api.rs:219-223). -/
def mapC {α β : Type} (f : α → Counted β) : List α → Counted (List β)
  | [] => .free (.ok [])
  | a :: as => (f a).bind fun b => (mapC f as).bind fun bs => .free (.ok (b :: bs))

/-- `foldRes` with the counter (for instance src/utils.rs:83-85). -/
def foldC {α σ : Type} (f : σ → α → Counted σ) (s : σ) : List α → Counted σ
  | [] => .free (.ok s)
  | a :: as => (f s a).bind fun s' => foldC f s' as

/-! ## Multiplications -/

/-- One multiplication (src/utils.rs:84). -/
def dotStepC (row col : List U32) (acc : U32) (i : Nat) : Counted U32 :=
  (Counted.free (rd row i)).bind fun r => (Counted.free (rd col i)).bind fun c => (.ok (acc + r * c), 1)

/-- `vec_mult_u32_u32` (src/utils.rs:72-87). -/
def vecMultC (row col : List U32) : Counted U32 :=
  if row.length ≠ col.length then .free (.err .inputSize)
  else foldC (dotStepC row col) 0#32 (List.range row.length)

/-- `.unwrap()` (src/db/kv.rs:193). -/
def Counted.unwrap {α : Type} (x : Counted α) : Counted α := (x.1.unwrap, x.2)

/-- `IndexDatabase::vec_mult` (src/db/index.rs:56-65). -/
def IndexDatabase.vecMultC (db : IndexDatabase) (row : List U32) (colIdx : Nat) : Counted U32 :=
  (Counted.free (rd db.entries colIdx)).bind fun col =>
    if row.length ≠ col.length then .free .panic else (Chalamet.vecMultC row col).unwrap

/-- `KVDatabase::vec_mult` (src/db/kv.rs:192-194). -/
def KVDatabase.vecMultC (db : KVDatabase) (row : List U32) (colIdx : Nat) : Counted U32 :=
  (Counted.free (rd db.entries colIdx)).bind fun col => (Chalamet.vecMultC row col).unwrap

/-- `Shard::respond` (src/api.rs:71-81). -/
def Shard.respondC (s : Shard) (q : List U32) : Counted (List U8) :=
  (Counted.free s.db.getRowWidthSelf).bind fun w =>
    (mapC (fun i => s.db.vecMultC q i) (List.range w)).bind fun resp => .free (.ok (bincodeSerialize resp))

/-- `KVShard::respond` (src/api.rs:218-227). -/
def KVShard.respondC (s : KVShard) (q : List U32) : Counted (List U8) :=
  (Counted.free s.db.getRowWidthSelf).bind fun w =>
    (mapC (fun i => s.db.vecMultC q i) (List.range w)).bind fun resp => .free (.ok (bincodeSerialize resp))

/-- `BaseParams::generate_params_rhs` (src/db/mod.rs:30-49), for a database with the given height, element size,
plaintext bits and `vec_mult`. -/
def generateParamsRhsC (prg : Prg) (height : Res Nat) (elemSize plaintextBits : Nat)
    (vecMult : List U32 → Nat → Counted U32) (publicSeed : List U8) (dim : Nat) : Counted (List (List U32)) :=
  (Counted.free height).bind fun height =>
  (Counted.free (swapMatrixFmt (generateLweMatrixFromSeed prg publicSeed dim height))).bind fun lhs =>
  (Counted.free (getRowWidth elemSize plaintextBits)).bind fun width =>
  mapC (fun i => mapC (fun r => vecMult r i) lhs) (List.range width)

/-- `IndexParams::new` (src/db/index.rs:131-141). -/
def IndexParams.newC (prg : Prg) (publicSeed : List U8) (db : IndexDatabase) (dim : Nat) : Counted IndexParams :=
  (generateParamsRhsC prg (.ok db.m) db.elemSize db.plaintextBits db.vecMultC publicSeed dim).bind fun rhs =>
  .free (.ok { dim := dim, m := db.m, publicSeed := publicSeed, rhs := rhs,
               elemSize := db.elemSize, plaintextBits := db.plaintextBits })

/-- `KVParams::new` (src/db/kv.rs:278-301). -/
def KVParams.newC (prg : Prg) (publicSeed : List U8) (db : KVDatabase) (dim : Nat) : Counted KVParams :=
  (generateParamsRhsC prg db.getMatrixHeight db.elemSize db.plaintextBits db.vecMultC publicSeed dim).bind fun rhs =>
  (Counted.free db.getMatrixHeight).bind fun height =>
  .free (.ok { dim := dim, m := height, publicSeed := publicSeed, rhs := rhs,
               elemSize := db.elemSize, plaintextBits := db.plaintextBits, filterParams := db.filterParams })

/-- `CommonParams::mult_left` (src/db/mod.rs:87-96). -/
def multLeftC (s : List U32) : List (List U32) → List U32 → Counted (List U32 × List U32)
  | [], tape => .free (.ok ([], tape))
  | col :: cols, tape =>
    (vecMultC s col).bind fun sa =>
    (Counted.free (randomTernary tape)).bind fun (e, tape) =>
    (multLeftC s cols tape).bind fun (rest, tape) =>
    .free (.ok ((sa + e) :: rest, tape))

/-- `BaseParams::mult_right` (src/db/mod.rs:59-64). -/
def multRightC (rhs : List (List U32)) (s : List U32) : Counted (List U32) :=
  mapC (fun col => vecMultC s col) rhs

/-- `generate_index_query_params` (src/api.rs:262-273, 434-439). -/
def generateIndexQueryParamsC (cp : List (List U32)) (params : IndexParams) (tape : List U32) :
    Counted (QueryParams Unit × List U32) :=
  (Counted.free (randomTernaryVector params.dim tape)).bind fun (s, tape) =>
  (multLeftC s cp tape).bind fun (lhs, tape) =>
  (multRightC params.rhs s).bind fun rhs =>
  .free (.ok ({ lhs := lhs, rhs := rhs, elemSize := params.elemSize,
                plaintextBits := params.plaintextBits, extraParams := none, used := false }, tape))

/-- `generate_kv_query_params` (src/api.rs:334-345, 442-447). -/
def generateKvQueryParamsC (cp : List (List U32)) (params : KVParams) (tape : List U32) :
    Counted (QueryParams FilterParams × List U32) :=
  (Counted.free (randomTernaryVector params.dim tape)).bind fun (s, tape) =>
  (multLeftC s cp tape).bind fun (lhs, tape) =>
  (multRightC params.rhs s).bind fun rhs =>
  .free (.ok ({ lhs := lhs, rhs := rhs, elemSize := params.elemSize,
                plaintextBits := params.plaintextBits, extraParams := some params.filterParams,
                used := false }, tape))

/-! ## Passes over the keys -/

/-- The retry loop of `bfusep_from_impl!` (bff-modp/src/prelude/bfusep.rs:77-195), counting its iterations; each of them
hashes all keys again (bfusep.rs:81-92). -/
def bfpLoopC (prof : Profile) (lay : Layout) (size : Nat) (hashes : List U64) :
    Nat → BState → Counted (List (U64 × Nat))
  | 0, _ => .free (.err .filterFailed)
  | n + 1, st =>
    Counted.bind (attempt prof lay size hashes st, 1) fun
      | .done stk => .free (.ok stk)
      | .peelFailed st' => bfpLoopC prof lay size hashes n st'
      | .countError st' => bfpLoopC prof lay size hashes n st'

/-- `BinaryFuseP32::from_slice` (bff-modp/src/bfusep32.rs:77-82, bff-modp/src/prelude/bfusep.rs:7-227). -/
def BinaryFuseP32.fromSliceC (prof : Profile) (segExp cap0 : Nat) (fp0 : Nat → U32)
    (seed : List U8) (keys : List Key) (data : List U32) (label ptxtMod : U64) : Counted BinaryFuseP32 :=
  if data.length ≠ keys.length then .free (.err .dataLen)
  else if prof = .debug ∧ (¬ keys.Nodup ∨ ptxtMod.toNat < 256) then .free .panic
  else
    (Counted.free (bfLayout keys.length segExp cap0)).bind fun lay =>
    (Counted.free (mapRes (fun k => mix256 k seed) keys)).bind fun hashes =>
    (bfpLoopC prof lay keys.length hashes bfpMaxIter (BState.init keys.length lay.arrayLen)).bind fun stk =>
    (Counted.free (foldRes (assignStepP lay.geom hashes data label ptxtMod)
      ((List.range lay.arrayLen).map fp0) stk)).bind fun fp =>
    .free (.ok { seed := seed, geom := lay.geom, fingerprints := fp, ptxtMod := ptxtMod })

/-- The per-column closure of `StorageFilters::from_kvs` (src/db/kv.rs:54-64). -/
def columnFilterC (prof : Profile) (segExp cap0 : Nat) (fp0 : Nat → Nat → U32) (seed : List U8)
    (kvs : List KeyValue) (plaintextBits i : Nat) : Counted BinaryFuseP32 :=
  (Counted.free (mapRes (fun kv => rd kv.value i) kvs)).bind fun column =>
  (Counted.free (pow2U64 prof plaintextBits)).bind fun p =>
  (BinaryFuseP32.fromSliceC prof segExp cap0 (fp0 i) seed (kvs.map (·.key)) column (BitVec.ofNat 64 i) p).unwrap

/-- `KVDatabase::new` (src/db/kv.rs:121-142) with `StorageFilters::from_kvs` (src/db/kv.rs:45-73). -/
def KVDatabase.newC (prof : Profile) (segExp cap0 : Nat) (fp0 : Nat → Nat → U32) (seed : List U8)
    (kvs : List KeyValue) (m elemSize plaintextBits : Nat) : Counted KVDatabase :=
  (Counted.free (rd kvs 0)).bind fun kv0 =>
  (mapC (columnFilterC prof segExp cap0 fp0 seed kvs plaintextBits) (List.range kv0.value.length)).bind fun filters =>
  (Counted.free (rd filters 0)).bind fun f0 =>
  (Counted.free (mapRes BinaryFuseP32.getFingerprintsMod filters)).bind fun columns =>
  .free (.ok { entries := columns, m := m, elemSize := elemSize, plaintextBits := plaintextBits,
               filterParams := { seed := seed, geom := f0.geom } })

/-- `KVShard::new` (src/api.rs:120-143), counting the passes of the filter constructions. -/
def KVShard.newC (prof : Profile) (prg : Prg) (publicSeed : List U8) (segExp cap0 : Nat)
    (fp0 : Nat → Nat → U32) (filterSeed : List U8) (kvs : List KeyValue)
    (lweDim m elemSize plaintextBits : Nat) : Counted KVShard :=
  (KVDatabase.newC prof segExp cap0 fp0 filterSeed kvs m elemSize plaintextBits).bind fun db =>
  (Counted.free (KVParams.new prg publicSeed db lweDim)).bind fun bp =>
  .free (.ok { db := db, baseParams := bp })

/-- The retry loop of `bfuse_from_impl!` (bff-modp/src/prelude/bfuse.rs:129-247), counting its iterations. -/
def bfxLoopC (prof : Profile) (lay : Layout) (keys : List U64) :
    Nat → U64 → U64 → BState → Counted (List (U64 × Nat) × U64)
  | 0, _, _, _ => .free (.err .filterFailed)
  | n + 1, rng, seed, st =>
    Counted.bind (attempt prof lay keys.length (keys.map fun k => mix k seed) st, 1) fun
      | .done stk => .free (.ok (stk, seed))
      | .peelFailed st' => bfxLoopC prof lay keys n (splitmix64 rng).1 (splitmix64 rng).2 st'
      | .countError st' => bfxLoopC prof lay keys n rng seed st'

/-- `BinaryFuse8/16/32::try_from` (bff-modp/src/bfuse8.rs:80-86, bff-modp/src/prelude/bfuse.rs:59-276). -/
def BinaryFuse.tryFromC (w : Nat) (prof : Profile) (segExp cap0 : Nat) (fp0 : Nat → BitVec w)
    (keys : List U64) : Counted (BinaryFuse w) :=
  if prof = .debug ∧ ¬ keys.Nodup then .free .panic
  else
    (Counted.free (bfLayout keys.length segExp cap0)).bind fun lay =>
    (bfxLoopC prof lay keys 1000 (splitmix64 1#64).1 (splitmix64 1#64).2
      (BState.init keys.length lay.arrayLen)).bind fun r =>
    (Counted.free (foldRes (assignStepX lay.geom) ((List.range lay.arrayLen).map fp0) r.1)).bind fun fp =>
    .free (.ok { seed := r.2, geom := lay.geom, fingerprints := fp })

/-- The retry loop of `fuse_from_impl!` (bff-modp/src/prelude/fuse.rs:99-157), counting its iterations. -/
def fuseLoopC (prof : Profile) (sl cap : Nat) (keys : List U64) :
    Nat → U64 → U64 → Counted (List KeyIndex × U64)
  | 0, _, _ => .free (.err .filterFailed)
  | n + 1, rng, seed =>
    Counted.bind (fuseAttempt prof sl cap (keys.map fun k => mix k seed), 1) fun
      | some stk => .free (.ok (stk, seed))
      | none => fuseLoopC prof sl cap keys n (splitmix64 rng).1 (splitmix64 rng).2

/-- `Fuse8/16/32::try_from` (bff-modp/src/fuse8.rs:83-89, bff-modp/src/prelude/fuse.rs:68-180). -/
def Fuse.tryFromC (w : Nat) (prof : Profile) (c0 : Nat) (fp0 : Nat → BitVec w) (keys : List U64) : Counted (Fuse w) :=
  if prof = .debug ∧ ¬ keys.Nodup then .free .panic
  else
    (fuseLoopC prof (c0 / fuseSlots * fuseSlots / fuseSlots) (c0 / fuseSlots * fuseSlots) keys 1000
      (splitmix64 1#64).1 (splitmix64 1#64).2).bind fun r =>
    (Counted.free (foldRes (fuseAssignStep (c0 / fuseSlots * fuseSlots / fuseSlots))
      ((List.range (c0 / fuseSlots * fuseSlots)).map fp0) r.1)).bind fun B =>
    .free (.ok { seed := r.2, segmentLength := c0 / fuseSlots * fuseSlots / fuseSlots, fingerprints := B })

/-- The retry loop of `xor_from_impl!` (bff-modp/src/prelude/xor.rs:93-161), counting its iterations. -/
def xorLoopC (prof : Profile) (cap bl : Nat) (keys : List U64) :
    Nat → U64 → U64 → Counted (List KeyIndex × U64)
  | 0, _, _ => .free .diverge
  | n + 1, rng, seed =>
    Counted.bind (xorAttempt prof cap bl (keys.map fun k => mix k seed), 1) fun
      | some stk => .free (.ok (stk, seed))
      | none => xorLoopC prof cap bl keys n (splitmix64 rng).1 (splitmix64 rng).2

/-- `Xor8/16/32::from` observed for `n` attempts (bff-modp/src/prelude/xor.rs:51-181). -/
def Xor.fromWithinC (w : Nat) (prof : Profile) (c0 : Nat) (keys : List U64) (n : Nat) : Counted (Xor w) :=
  if prof = .debug ∧ ¬ keys.Nodup then .free .panic
  else
    (xorLoopC prof ((c0 + 32) / 3 * 3) ((c0 + 32) / 3 * 3 / 3) keys n (splitmix64 1#64).1 (splitmix64 1#64).2).bind fun r =>
    (Counted.free (foldRes (xorAssignStep ((c0 + 32) / 3 * 3 / 3)) (List.replicate ((c0 + 32) / 3 * 3) 0#w) r.1)).bind fun B =>
    .free (.ok { seed := r.2, blockLength := (c0 + 32) / 3 * 3 / 3, fingerprints := B })

end Chalamet
