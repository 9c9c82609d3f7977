import Verif.Model.Hash

/-!
# Model of the binary fuse filters of `bff-modp`

`bfusep_from_impl!` (prelude/bfusep.rs) and `bfuse_from_impl!` (prelude/bfuse.rs) have the same
text for geometry, bucketing, counting, peeling and retry; those parts are modelled once and cite
both macros (`P:` lines of prelude/bfusep.rs, `X:` lines of prelude/bfuse.rs).

Conventions / simplifications:
* the two values computed with `libm` are arguments: `segExp` is
  `floor(log(size)/log(3.33) + 2.25) as u32` and `cap0` is `round(size * size_factor) as u32`;
* `u32` overflow in the geometry computation (more than about 3.8e9 keys) is a panic;
* `alone[..qsize]` is modelled by the stack `q` (top first) and
  `(reverse_order, reverse_h)[..stack_size]` during peeling by the stack `stk` (top first): the
  stores beyond the live prefix are never read before being overwritten; the bounds checks are kept;
* `h012` and `start_pos` are scratch arrays that are rewritten before they are read, so they are
  local here.
-/

namespace Chalamet

/-- Geometry of a filter: slot parameters, fingerprint array length and segment count.
Values computed at P:36-50, X:87-101. -/
structure Layout where
  geom : Geom
  arrayLen : Nat
  segmentCount : Nat
  deriving DecidableEq, Repr

/-- `segment_length(3, size).min(262144)` (X:7-17, P:30, X:81), with the libm exponent given. -/
def segmentLength (size segExp : Nat) : Nat :=
  if size = 0 then 4 else min (2 ^ segExp) 262144

/-- Geometry computation (P:28-50, X:79-101). -/
def bfLayout (size segExp cap0 : Nat) : Res Layout :=
  let arity := 3
  let sl := segmentLength size segExp
  let capacity := if size > 1 then cap0 else 0
  let initSegmentCount := (capacity + sl - 1) / sl
  let arrayLen0 := initSegmentCount * sl
  let proposed := (arrayLen0 + sl - 1) / sl
  let segmentCount := if proposed < arity then 1 else proposed - (arity - 1)
  let arrayLen := (segmentCount + arity - 1) * sl
  if 2 ^ 32 ≤ capacity + sl ∨ 2 ^ 32 ≤ arrayLen0 + sl ∨ 2 ^ 32 ≤ arrayLen then .panic
  else .ok {
    geom := {
      segmentLength := BitVec.ofNat 32 sl
      segmentLengthMask := BitVec.ofNat 32 (sl - 1)
      segmentCountLength := BitVec.ofNat 32 (segmentCount * sl) }
    arrayLen := arrayLen
    segmentCount := segmentCount }

/-- `while (1 << block_bits) < segment_count { block_bits += 1 }` (P:64-70, X:116-122), at most
`fuel` iterations (32 suffice since `segment_count < 2^32`). -/
def blockBitsLoop (segmentCount : Nat) : Nat → Nat → Nat
  | 0, bb => bb
  | fuel + 1, bb => if 2 ^ bb < segmentCount then blockBitsLoop segmentCount fuel (bb + 1) else bb

/-- `block_bits` (P:64-70, X:116-122). -/
def blockBits (segmentCount : Nat) : Nat := blockBitsLoop segmentCount 32 1

/-- The arrays that survive from one attempt to the next (P:55-61, X:108-114). -/
structure BState where
  reverseOrder : List U64
  t2count : List U8
  t2hash : List U64
  deriving DecidableEq, Repr

/-- Initial arrays (P:54-61, X:107-114): zeroes, and the sentinel `reverse_order[size] = 1`. -/
def BState.init (size capacity : Nat) : BState where
  reverseOrder := List.replicate size 0#64 ++ [1#64]
  t2count := List.replicate capacity 0#8
  t2hash := List.replicate capacity 0#64

/-- `start_pos` initialisation (P:78-80, X:130-132). -/
def startPosInit (size bb : Nat) : List Nat :=
  (List.range (2 ^ bb)).map fun i => (i * size) / 2 ^ bb

/-- The probing loop (P:84-87, X:136-139). The loop state is only `segment_index`, which cycles
through `2^block_bits` values, so needing more than `2^block_bits` tests means running forever. -/
def probe (bb : Nat) (startPos : List Nat) (reverseOrder : List U64) : Nat → Nat → Res Nat
  | 0, _ => .diverge
  | fuel + 1, segmentIndex => do
    let p ← rd startPos segmentIndex
    let v ← rd reverseOrder p
    if v ≠ 0#64 then probe bb startPos reverseOrder fuel ((segmentIndex + 1) % 2 ^ bb)
    else .ok segmentIndex

/-- Body of the bucketing loop (P:81-91, X:133-142) for a key with hash `hash`. -/
def bucketStep (bb : Nat) (st : List Nat × List U64) (hash : U64) : Res (List Nat × List U64) := do
  let (startPos, reverseOrder) := st
  let segmentIndex := hash.toNat / 2 ^ (64 - bb)
  let segmentIndex ← probe bb startPos reverseOrder (2 ^ bb) segmentIndex
  let p ← rd startPos segmentIndex
  let reverseOrder ← wr reverseOrder p hash
  let startPos ← wr startPos segmentIndex (p + 1)
  .ok (startPos, reverseOrder)

/-- The two counting arrays.
`t2count`, `t2hash` (P:56-57, X:109-110). -/
abbrev T2 := List U8 × List U64

/-- `t2count[i] += 4; t2count[i] ^= x; t2hash[i] ^= hash` (P:99-107, X:150-158). -/
def bump (prof : Profile) (t : T2) (i : Nat) (x : U8) (hash : U64) : Res T2 := do
  let c ← rd t.1 i
  let c ← addC prof c 4#8
  let cs ← wr t.1 i (c ^^^ x)
  let h ← rd t.2 i
  let hs ← wr t.2 i (h ^^^ hash)
  .ok (cs, hs)

/-- `t2count[i] -= 4; t2count[i] ^= x; t2hash[i] ^= hash` (P:114-122, P:163-165, P:172-174,
X:165-173, X:214-216, X:223-225). -/
def unbump (prof : Profile) (t : T2) (i : Nat) (x : U8) (hash : U64) : Res T2 := do
  let c ← rd t.1 i
  let c ← subC prof c 4#8
  let cs ← wr t.1 i (c ^^^ x)
  let h ← rd t.2 i
  let hs ← wr t.2 i (h ^^^ hash)
  .ok (cs, hs)

/-- State of the counting loop: arrays, number of duplicates, error flag
(P:93-126, X:144-177). -/
structure CState where
  t : T2
  duplicates : Nat
  error : Bool
  deriving DecidableEq, Repr

/-- Body of the counting loop (P:95-126, X:146-177). Note that `error` is overwritten, not
accumulated. -/
def countStep (prof : Profile) (g : Geom) (s : CState) (hash : U64) : Res CState := do
  let (index1, index2, index3) := hashOfHash hash g
  let (i1, i2, i3) := (index1.toNat, index2.toNat, index3.toNat)
  let t ← bump prof s.t i1 0#8 hash
  let t ← bump prof t i2 1#8 hash
  let t ← bump prof t i3 2#8 hash
  let h1 ← rd t.2 i1
  let h2 ← rd t.2 i2
  let h3 ← rd t.2 i3
  let c1 ← rd t.1 i1
  let c2 ← rd t.1 i2
  let c3 ← rd t.1 i3
  let dup : Bool := h1 &&& h2 &&& h3 = 0#64 ∧
    ((h1 = 0#64 ∧ c1 = 8#8) ∨ (h2 = 0#64 ∧ c2 = 8#8) ∨ (h3 = 0#64 ∧ c3 = 8#8))
  let (t, duplicates) ←
    if dup then do
      let t ← unbump prof t i1 0#8 hash
      let t ← unbump prof t i2 1#8 hash
      let t ← unbump prof t i3 2#8 hash
      Res.ok (t, s.duplicates + 1)
    else Res.ok (t, s.duplicates)
  let c1 ← rd t.1 i1
  let c2 ← rd t.1 i2
  let c3 ← rd t.1 i3
  .ok { t := t, duplicates := duplicates,
        error := decide (c1.toNat < 4 ∨ c2.toNat < 4 ∨ c3.toNat < 4) }

/-- Body of the enqueueing loop (P:134-139, X:185-190): `alone[qsize] = i`, and keep it when the slot
holds one key. -/
def enqueueStep (capacity : Nat) (t2count : List U8) (q : List Nat) (i : Nat) : Res (List Nat) :=
  if capacity ≤ q.length then .panic
  else do
    let c ← rd t2count i
    if c.toNat / 4 = 1 then .ok (i :: q) else .ok q

/-- State of the peeling loop: the queue `alone[..qsize]` (top first), the counting arrays, and the
stack of peeled hashes with their pivot positions (top first)
(P:132-176, X:183-227). -/
structure PState where
  q : List Nat
  t : T2
  stk : List (U64 × Nat)
  deriving DecidableEq, Repr

/-- Processing of one "other" index of a peeled key (P:158-165 and P:167-174, X:209-216 and
X:218-225): `alone[qsize] = other`, keep it when the slot holds two keys, then remove the key. -/
def peelOther (prof : Profile) (capacity : Nat) (q : List Nat) (t : T2) (other : Nat) (x : U8)
    (hash : U64) : Res (List Nat × T2) :=
  if capacity ≤ q.length then .panic
  else do
    let c ← rd t.1 other
    let q := if c.toNat / 4 = 2 then other :: q else q
    let t ← unbump prof t other x hash
    .ok (q, t)

/-- Body of the peeling loop (P:142-175, X:193-226) for the popped `index`; `q` is the queue after
the pop. The scratch array `h012` has entries 1-4 set and entry 5 still 0. -/
def peelStep (prof : Profile) (g : Geom) (capacity size : Nat) (index : Nat) (s : PState) :
    Res PState := do
  let c ← rd s.t.1 index
  if c.toNat / 4 = 1 then do
    let hash ← rd s.t.2 index
    let found := c.toNat % 4
    if size ≤ s.stk.length then .panic
    else do
      let stk := (hash, found) :: s.stk
      let (index1, index2, index3) := hashOfHash hash g
      let h012 := [0, index2.toNat, index3.toNat, index1.toNat, index2.toNat, 0]
      let other1 ← rd h012 (found + 1)
      let (q, t) ← peelOther prof capacity s.q s.t other1 (BitVec.ofNat 8 (mod3 (found + 1))) hash
      let other2 ← rd h012 (found + 2)
      let (q, t) ← peelOther prof capacity q t other2 (BitVec.ofNat 8 (mod3 (found + 2))) hash
      .ok { q := q, t := t, stk := stk }
  else .ok s

/-- `while qsize > 0 { qsize -= 1; .. }` (P:141-176, X:192-227) with at most `fuel` iterations. -/
def peelLoop (prof : Profile) (g : Geom) (capacity size : Nat) : Nat → PState → Res PState
  | 0, s => if s.q = [] then .ok s else .diverge
  | fuel + 1, s =>
    match s.q with
    | [] => .ok s
    | index :: q => do
      let s' ← peelStep prof g capacity size index { s with q := q }
      peelLoop prof g capacity size fuel s'

/-- Result of one attempt: success with the peeling stack, a failed peeling (arrays reset), or an
`error` (`continue` without a reset)
(P:127-129, P:178-191, X:178-180, X:229-243). -/
inductive Attempt where
  | done (stk : List (U64 × Nat))
  | peelFailed (st : BState)
  | countError (st : BState)
  deriving DecidableEq, Repr

/-- One iteration of the retry loop (P:77-192, X:129-244), for the given key hashes.
An `error` continues *without* resetting the arrays (P:127-129, X:178-180); a failed peeling resets
them (P:184-191, X:235-243). Peeling needs at most `capacity + 2*size` iterations (`peelLoop_fuel`). -/
def attempt (prof : Profile) (lay : Layout) (size : Nat) (hashes : List U64) (st : BState) :
    Res Attempt := do
  let bb := blockBits lay.segmentCount
  let capacity := lay.arrayLen
  let (_, reverseOrder) ← foldRes (bucketStep bb) (startPosInit size bb, st.reverseOrder) hashes
  let c ← foldRes (countStep prof lay.geom)
    { t := (st.t2count, st.t2hash), duplicates := 0, error := false } (reverseOrder.take size)
  if c.error then
    .ok (.countError { reverseOrder := reverseOrder, t2count := c.t.1, t2hash := c.t.2 })
  else do
    let q ← foldRes (enqueueStep capacity c.t.1) [] (List.range capacity)
    let p ← peelLoop prof lay.geom capacity size (capacity + 2 * size) { q := q, t := c.t, stk := [] }
    if p.stk.length + c.duplicates = size then .ok (.done p.stk)
    else .ok (.peelFailed {
      reverseOrder := List.replicate size 0#64 ++ reverseOrder.drop size
      t2count := List.replicate capacity 0#8
      t2hash := List.replicate capacity 0#64 })

/-! ## `BinaryFuseP32` -/

/-- `struct BinaryFuseP32` (bff-modp/src/bfusep32.rs:51-62). -/
structure BinaryFuseP32 where
  seed : List U8
  geom : Geom
  fingerprints : List U32
  ptxtMod : U64
  deriving DecidableEq, Repr

/-- The retry loop of `bfusep_from_impl!` (P:77-195): the hashes are the same in every iteration. -/
def bfpLoop (prof : Profile) (lay : Layout) (size : Nat) (hashes : List U64) :
    Nat → BState → Res (List (U64 × Nat))
  | 0, _ => .err .filterFailed
  | n + 1, st => do
    match ← attempt prof lay size hashes st with
    | .done stk => .ok stk
    | .peelFailed st' => bfpLoop prof lay size hashes n st'
    | .countError st' => bfpLoop prof lay size hashes n st'

/-- `hm_keys.get(&hash)` on the map filled by the insertions `hm_keys.insert(hash, data[i])` in order
(P:62, P:89, P:201): the last insertion for a hash wins. -/
def hmGet (hashes : List U64) (data : List U32) (hash : U64) : Option U32 :=
  ((hashes.zip data).reverse.lookup hash)

/-- Body of the assignment loop (P:199-215). `% 0` panics. -/
def assignStepP (g : Geom) (hashes : List U64) (data : List U32) (label ptxtMod : U64)
    (fp : List U32) (e : U64 × Nat) : Res (List U32) := do
  let (hash, found) := e
  match hmGet hashes data hash with
  | none => .panic
  | some d => do
    let (index1, index2, index3) := hashOfHash hash g
    let h012 := [index1.toNat, index2.toNat, index3.toNat, index1.toNat, index2.toNat, 0]
    let p : U32 := ptxtMod.setWidth 32
    if p = 0#32 ∨ ptxtMod = 0#64 then .panic
    else do
      let a ← rd h012 (found + 1)
      let b ← rd h012 (found + 2)
      let c ← rd h012 found
      let fa ← rd fp a
      let fb ← rd fp b
      let entry := (d % p - fa - fb) % p
      let mask : U32 := (mix hash label % ptxtMod).setWidth 32
      wr fp c ((entry - mask) % p)

/-- `bfusep_from_impl!` (P:7-227). `fp0` are the initial contents chosen by `make_fp_block!`
(prelude/mod.rs:117-135): arbitrary words with the default `uniform-random` feature, zeroes without;
only the first `array_len` of them are used. In debug builds the two `debug_assert!`s (P:22-26) run
first. `data[i]` panics when `data` is too short (reachable through `from_vec`). -/
def bfusePFromImpl (prof : Profile) (segExp cap0 maxIter : Nat) (fp0 : Nat → U32)
    (seed : List U8) (keys : List Key) (data : List U32) (label ptxtMod : U64) :
    Res BinaryFuseP32 := do
  if prof = .debug ∧ (¬ keys.Nodup ∨ ptxtMod.toNat < 256) then .panic
  else do
    let size := keys.length
    let lay ← bfLayout size segExp cap0
    let hashes ← mapRes (fun k => mix256 k seed) keys
    if data.length < keys.length ∧ 0 < maxIter then .panic
    else do
      let stk ← bfpLoop prof lay size hashes maxIter (BState.init size lay.arrayLen)
      let fp ← foldRes (assignStepP lay.geom hashes data label ptxtMod)
        ((List.range lay.arrayLen).map fp0) stk
      .ok { seed := seed, geom := lay.geom, fingerprints := fp, ptxtMod := ptxtMod }

/-- `max iter 100_000` (bff-modp/src/bfusep32.rs:81, 87). -/
def bfpMaxIter : Nat := 100000

/-- `BinaryFuseP32::from_slice` (bff-modp/src/bfusep32.rs:77-82). -/
def BinaryFuseP32.fromSlice (prof : Profile) (segExp cap0 : Nat) (fp0 : Nat → U32)
    (seed : List U8) (keys : List Key) (data : List U32) (label ptxtMod : U64) :
    Res BinaryFuseP32 :=
  if data.length ≠ keys.length then .err .dataLen
  else bfusePFromImpl prof segExp cap0 bfpMaxIter fp0 seed keys data label ptxtMod

/-- `BinaryFuseP32::from_vec` (bff-modp/src/bfusep32.rs:85-88): no length check. -/
def BinaryFuseP32.fromVec (prof : Profile) (segExp cap0 : Nat) (fp0 : Nat → U32)
    (seed : List U8) (keys : List Key) (data : List U32) (label ptxtMod : U64) :
    Res BinaryFuseP32 :=
  bfusePFromImpl prof segExp cap0 bfpMaxIter fp0 seed keys data label ptxtMod

/-- `BinaryFuseP32::retrieve` (bff-modp/src/bfusep32.rs:91-93, P:233-250). -/
def BinaryFuseP32.retrieve (f : BinaryFuseP32) (key : Key) (label : U64) : Res U32 := do
  let hash ← mix256 key f.seed
  let (h0, h1, h2) := hashOfHash hash f.geom
  let f0 ← rd f.fingerprints h0.toNat
  let f1 ← rd f.fingerprints h1.toNat
  let f2 ← rd f.fingerprints h2.toNat
  let p : U32 := f.ptxtMod.setWidth 32
  if p = 0#32 ∨ f.ptxtMod = 0#64 then .panic
  else
    let mask : U32 := (mix hash label % f.ptxtMod).setWidth 32
    .ok ((f0 + f1 + f2 + mask) % p)

/-- `BinaryFuseP32::get_fingerprints_mod` (bff-modp/src/bfusep32.rs:96-98). -/
def BinaryFuseP32.getFingerprintsMod (f : BinaryFuseP32) : Res (List U32) :=
  mapRes (fun x =>
    let p : U32 := f.ptxtMod.setWidth 32
    if p = 0#32 then .panic else .ok (x % p)) f.fingerprints

/-- `BinaryFuseP32::hash_eval` (bff-modp/src/bfusep32.rs:101-103, P:256-270). -/
def BinaryFuseP32.hashEval (prof : Profile) (key : Key) (seed : List U8) (g : Geom) : Res (List Nat) := do
  let hash ← mix256 key seed
  let (h0, h1, h2) ← hashOfHashC prof hash g
  .ok [h0.toNat, h1.toNat, h2.toNat]

/-- `BinaryFuseP32::get_key_fingerprint` (bff-modp/src/bfusep32.rs:106-108, P:275-288). -/
def BinaryFuseP32.getKeyFingerprint (key : Key) (seed : List U8) (label : U64) : Res U64 := do
  let hash ← mix256 key seed
  .ok (mix hash label)

/-- `BinaryFuseP32::len` (bff-modp/src/bfusep32.rs:70-72). -/
def BinaryFuseP32.len (f : BinaryFuseP32) : Nat := f.fingerprints.length

/-! ## `BinaryFuse8/16/32` -/

/-- `struct BinaryFuse8/16/32` (bff-modp/src/bfuse8.rs, bfuse16.rs, bfuse32.rs), for fingerprints of
`w` bits
(bfuse8.rs:58-65). -/
structure BinaryFuse (w : Nat) where
  seed : U64
  geom : Geom
  fingerprints : List (BitVec w)

/-- The retry loop of `bfuse_from_impl!` (X:129-247): after a failed peeling the seed is redrawn
(X:243), after an `error` it is not (X:178-180). Returns the stack and the seed it belongs to. -/
def bfxLoop (prof : Profile) (lay : Layout) (keys : List U64) :
    Nat → U64 → U64 → BState → Res (List (U64 × Nat) × U64)
  | 0, _, _, _ => .err .filterFailed
  | n + 1, rng, seed, st => do
    match ← attempt prof lay keys.length (keys.map fun k => mix k seed) st with
    | .done stk => .ok (stk, seed)
    | .peelFailed st' => bfxLoop prof lay keys n (splitmix64 rng).1 (splitmix64 rng).2 st'
    | .countError st' => bfxLoop prof lay keys n rng seed st'

/-- Body of the assignment loop (X:251-265). -/
def assignStepX {w : Nat} (g : Geom) (fp : List (BitVec w)) (e : U64 × Nat) :
    Res (List (BitVec w)) := do
  let (hash, found) := e
  let (index1, index2, index3) := hashOfHash hash g
  let h012 := [index1.toNat, index2.toNat, index3.toNat, index1.toNat, index2.toNat, 0]
  let c ← rd h012 found
  let a ← rd h012 (found + 1)
  let b ← rd h012 (found + 2)
  let fa ← rd fp a
  let fb ← rd fp b
  wr fp c ((fingerprint hash).setWidth w ^^^ fa ^^^ fb)

/-- `bfuse_from_impl!` (X:59-276): `rng` starts at 1 and the first seed is its first output
(X:105-106). -/
def bfuseXFromImpl (w : Nat) (prof : Profile) (segExp cap0 maxIter : Nat) (fp0 : Nat → BitVec w)
    (keys : List U64) : Res (BinaryFuse w) := do
  if prof = .debug ∧ ¬ keys.Nodup then .panic
  else do
    let lay ← bfLayout keys.length segExp cap0
    let (stk, seed) ← bfxLoop prof lay keys maxIter (splitmix64 1#64).1 (splitmix64 1#64).2
      (BState.init keys.length lay.arrayLen)
    let fp ← foldRes (assignStepX lay.geom) ((List.range lay.arrayLen).map fp0) stk
    .ok { seed := seed, geom := lay.geom, fingerprints := fp }

/-- `BinaryFuse8/16/32::try_from` (bff-modp/src/bfuse8.rs:80-86, bfuse16.rs:80-86,
bfuse32.rs:81-87): at most 1000 iterations. -/
def BinaryFuse.tryFrom (w : Nat) (prof : Profile) (segExp cap0 : Nat) (fp0 : Nat → BitVec w)
    (keys : List U64) : Res (BinaryFuse w) :=
  bfuseXFromImpl w prof segExp cap0 1000 fp0 keys

/-- `contains` (bff-modp/src/bfuse8.rs:71-73, X:281-300). -/
def BinaryFuse.contains {w : Nat} (f : BinaryFuse w) (key : U64) : Res Bool := do
  let hash := mix key f.seed
  let (h0, h1, h2) := hashOfHash hash f.geom
  let f0 ← rd f.fingerprints h0.toNat
  let f1 ← rd f.fingerprints h1.toNat
  let f2 ← rd f.fingerprints h2.toNat
  .ok (decide ((fingerprint hash).setWidth w ^^^ (f0 ^^^ f1 ^^^ f2) = 0#w))

/-- `BinaryFuse8/16/32::len` (bff-modp/src/bfuse8.rs:75-77, bfuse16.rs:75-77, bfuse32.rs:76-78). -/
def BinaryFuse.len {w : Nat} (f : BinaryFuse w) : Nat := f.fingerprints.length

end Chalamet
