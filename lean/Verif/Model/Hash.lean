import Verif.Model.Utils

/-!
# Model of the hashing code of `bff-modp`

`murmur3.rs`, `splitmix64.rs`, `prelude/mod.rs` (mix, mix256, fingerprint, rotl64, reduce),
`prelude/bfuse.rs` (hash_of_hash, mod3), `prelude/xor.rs` (xor_h), `prelude/fuse.rs` (H012).
-/

namespace Chalamet

/-- `murmur3::mix64` (bff-modp/src/murmur3.rs:30-37). -/
def mix64 (k : U64) : U64 :=
  let k := k ^^^ (k >>> 33)
  let k := k * 0xff51afd7ed558ccd#64
  let k := k ^^^ (k >>> 33)
  let k := k * 0xc4ceb9fe1a85ec53#64
  let k := k ^^^ (k >>> 33)
  k

/-- `splitmix64` (bff-modp/src/splitmix64.rs:12-18): new state and output. -/
def splitmix64 (seed : U64) : U64 × U64 :=
  let seed := seed + 0x9e3779b97f4a7c15#64
  let z := seed
  let z := (z ^^^ (z >>> 30)) * 0xbf58476d1ce4e5b9#64
  let z := (z ^^^ (z >>> 27)) * 0x94d049bb133111eb#64
  (seed, z ^^^ (z >>> 31))

/-- `mix` (bff-modp/src/prelude/mod.rs:39-41). -/
def mix (key seed : U64) : U64 := mix64 (key + seed)

/-- A 256-bit key `[u64; 4]`, as the list of its words
(bff-modp/src/bfusep32.rs:77, src/db/kv.rs:18). -/
abbrev Key := List U64

/-- The seed words of `mix256` (bff-modp/src/prelude/mod.rs:46-52): panics unless the seed has
32 bytes. -/
def seedWords (seed : List U8) : Res (List U64) :=
  if seed.length ≠ 32 then .panic
  else .ok ((List.range 4).map fun i => u64FromLeBytes ((seed.drop (8 * i)).take 8))

/-- The closure of `mix256` applied to one key word (bff-modp/src/prelude/mod.rs:54-60). -/
def mixWord (seeds : List U64) (k : U64) : U64 :=
  seeds.foldl (fun mixed s => mix64 (mixed + mix k s)) 0#64

/-- `mix256` (bff-modp/src/prelude/mod.rs:45-62). -/
def mix256 (key : Key) (seed : List U8) : Res U64 := do
  let seeds ← seedWords seed
  .ok ((key.map (mixWord seeds)).foldl (· + ·) 0#64)

/-- `fingerprint!` (bff-modp/src/prelude/mod.rs:67-71). -/
def fingerprint (hash : U64) : U64 := hash ^^^ (hash >>> 32)

/-- `rotl64!` (bff-modp/src/prelude/mod.rs:76-80): `(n << (c & 63)) | (n >> ((-c) & 63))`. -/
def rotl64 (n : U64) (c : Nat) : U64 := (n <<< (c % 64)) ||| (n >>> ((64 - c % 64) % 64))

/-- `reduce!` (bff-modp/src/prelude/mod.rs:85-89): `((hash as u64 * n as u64) >> 32) as usize`.
The `u64` product is taken in `Nat` (it cannot overflow for `n < 2^32`). -/
def reduce (hash : U32) (n : Nat) : Nat := (hash.toNat * n) / 2 ^ 32

/-- Parameters of a binary fuse filter that determine the slots of a hash
(fields of `BinaryFuseP32`, bff-modp/src/bfusep32.rs:51-62; `FilterParams`,
src/db/kv.rs:85-90). -/
structure Geom where
  segmentLength : U32
  segmentLengthMask : U32
  segmentCountLength : U32
  deriving DecidableEq, Repr

/-- `hash_of_hash` (bff-modp/src/prelude/bfuse.rs:32-46). `u32` additions wrap here; that they do not
overflow for the geometries the constructor produces is `hashOfHashC_ok`. -/
def hashOfHash (hash : U64) (g : Geom) : U32 × U32 × U32 :=
  let hi : U64 := BitVec.ofNat 64 ((hash.toNat * g.segmentCountLength.toNat) / 2 ^ 64)
  let h0 : U32 := hi.setWidth 32
  let h1 := h0 + g.segmentLength
  let h2 := h1 + g.segmentLength
  let h1 := h1 ^^^ ((hash >>> 18).setWidth 32 &&& g.segmentLengthMask)
  let h2 := h2 ^^^ (hash.setWidth 32 &&& g.segmentLengthMask)
  (h0, h1, h2)

/-- `hash_of_hash` with the overflow checks of debug builds on its two `u32` additions
(bff-modp/src/prelude/bfuse.rs:40-41), for geometries that need not come from the constructor (a client gets
them from the server). In release builds it is `hashOfHash`. -/
def hashOfHashC (prof : Profile) (hash : U64) (g : Geom) : Res (U32 × U32 × U32) := do
  let hi : U64 := BitVec.ofNat 64 ((hash.toNat * g.segmentCountLength.toNat) / 2 ^ 64)
  let h0 : U32 := hi.setWidth 32
  let h1 ← addC prof h0 g.segmentLength
  let h2 ← addC prof h1 g.segmentLength
  let h1 := h1 ^^^ ((hash >>> 18).setWidth 32 &&& g.segmentLengthMask)
  let h2 := h2 ^^^ (hash.setWidth 32 &&& g.segmentLengthMask)
  .ok (h0, h1, h2)

/-- `mod3` (bff-modp/src/prelude/bfuse.rs:48-55). -/
def mod3 (x : Nat) : Nat := if x > 2 then x - 3 else x

/-- `xor_h!` (bff-modp/src/prelude/xor.rs:21-28). -/
def xorH (i blockLength : Nat) (hash : U64) : Nat :=
  reduce ((rotl64 hash (i * 21)).setWidth 32) blockLength

/-- `H012::from` (bff-modp/src/prelude/fuse.rs:23-42). `SEGMENT_COUNT = 100`. -/
def h012 (hash : U64) (segmentLength : Nat) : Nat × Nat × Nat :=
  let r0 : U32 := hash.setWidth 32
  let r1 : U32 := (rotl64 hash 21).setWidth 32
  let r2 : U32 := (rotl64 hash 42).setWidth 32
  let r3 : U32 := ((0xbf58476d1ce4e5b9#64 * hash) >>> 32).setWidth 32
  let seg := reduce r0 100
  (seg * segmentLength + reduce r1 segmentLength,
   (seg + 1) * segmentLength + reduce r2 segmentLength,
   (seg + 2) * segmentLength + reduce r3 segmentLength)

end Chalamet
