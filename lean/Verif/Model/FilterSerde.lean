import Verif.Model.Files
import Verif.Model.BFuse
import Verif.Model.Fuse

/-!
# Model of the serde derives of the `bff-modp` filters, and of lookups in filters that were loaded

The crate enables its feature `serde` by default (bff-modp/Cargo.toml, `[features]`), so every filter type derives
`Serialize` and `Deserialize`. As in `Model/Files`, documents are JSON trees. `Box<[T]>` is encoded as a list.

A loaded filter need not come from a constructor, so the lookups are modelled here with the overflow checks of
debug builds (`containsC`, `retrieveC`); `containsC_eq`-style lemmas (`Props/FilterDocs`) relate them to the
lookups of `Model/BFuse` and `Model/Fuse`.
-/

namespace Chalamet

/-! ## Encoders and decoders -/

/-- Serialisation of a `Box<[uN]>`
(bff-modp/src/bfuse8.rs:64, bfusep32.rs:60, fuse8.rs:69, xor8.rs:58). -/
def jWords {w : Nat} (l : List (BitVec w)) : Json := .arr (l.map fun x => jNat x.toNat)

/-- Deserialisation of a `u8`, `u16`, `u32` or `u64` (`w` bits)
(bff-modp/src/bfuse8.rs:59-64, bfusep32.rs:60-61, fuse8.rs:65-69, xor8.rs:54-58). -/
def decWord (w : Nat) (j : Json) : Res (BitVec w) := do
  let n ← decNat (2 ^ w) j
  .ok (BitVec.ofNat w n)

/-- `#[derive(Serialize)]` of `BinaryFuse8/16/32` (bff-modp/src/bfuse8.rs:56-65, bfuse16.rs:56-65,
bfuse32.rs:57-66). -/
def BinaryFuse.toJson {w : Nat} (f : BinaryFuse w) : Json :=
  .obj [("seed", jNat f.seed.toNat), ("segment_length", jNat f.geom.segmentLength.toNat),
    ("segment_length_mask", jNat f.geom.segmentLengthMask.toNat),
    ("segment_count_length", jNat f.geom.segmentCountLength.toNat), ("fingerprints", jWords f.fingerprints)]

/-- The fields of `BinaryFuse8/16/32`, decoded (bff-modp/src/bfuse8.rs:58-65). -/
def BinaryFuse.ofFields (w : Nat) : List (Option Json) → Res (BinaryFuse w)
  | [a, b, c, d, e] => do
    let seed ← req (decWord 64) a
    let sl ← req decU32 b
    let mask ← req decU32 c
    let scl ← req decU32 d
    let fps ← req (decList (decWord w)) e
    .ok { seed := seed, geom := { segmentLength := sl, segmentLengthMask := mask, segmentCountLength := scl },
          fingerprints := fps }
  | _ => .err .json

/-- `#[derive(Deserialize)]` of `BinaryFuse8/16/32` (bff-modp/src/bfuse8.rs:56-65, bfuse16.rs:56-65,
bfuse32.rs:57-66). -/
def BinaryFuse.fromJson (w : Nat) (j : Json) : Res (BinaryFuse w) :=
  structFields ["seed", "segment_length", "segment_length_mask", "segment_count_length", "fingerprints"] j >>=
    BinaryFuse.ofFields w

/-- `#[derive(Serialize)]` of `BinaryFuseP32` (bff-modp/src/bfusep32.rs:49-62). -/
def BinaryFuseP32.toJson (f : BinaryFuseP32) : Json :=
  .obj [("seed", jBytes f.seed), ("segment_length", jNat f.geom.segmentLength.toNat),
    ("segment_length_mask", jNat f.geom.segmentLengthMask.toNat),
    ("segment_count_length", jNat f.geom.segmentCountLength.toNat), ("fingerprints", jU32s f.fingerprints),
    ("ptxt_mod", jNat f.ptxtMod.toNat)]

/-- The fields of `BinaryFuseP32`, decoded (bff-modp/src/bfusep32.rs:51-62). -/
def BinaryFuseP32.ofFields : List (Option Json) → Res BinaryFuseP32
  | [a, b, c, d, e, f] => do
    let seed ← req decSeed a
    let sl ← req decU32 b
    let mask ← req decU32 c
    let scl ← req decU32 d
    let fps ← req (decList decU32) e
    let p ← req (decWord 64) f
    .ok { seed := seed, geom := { segmentLength := sl, segmentLengthMask := mask, segmentCountLength := scl },
          fingerprints := fps, ptxtMod := p }
  | _ => .err .json

/-- `#[derive(Deserialize)]` of `BinaryFuseP32` (bff-modp/src/bfusep32.rs:49-62). -/
def BinaryFuseP32.fromJson (j : Json) : Res BinaryFuseP32 :=
  structFields ["seed", "segment_length", "segment_length_mask", "segment_count_length", "fingerprints", "ptxt_mod"] j >>=
    BinaryFuseP32.ofFields

/-- `#[derive(Serialize)]` of `Fuse8/16/32` (bff-modp/src/fuse8.rs:61-70, fuse16.rs:61-70, fuse32.rs:61-70). -/
def Fuse.toJson {w : Nat} (f : Fuse w) : Json :=
  .obj [("seed", jNat f.seed.toNat), ("segment_length", jNat f.segmentLength), ("fingerprints", jWords f.fingerprints)]

/-- The fields of `Fuse8/16/32`, decoded (bff-modp/src/fuse8.rs:63-70). -/
def Fuse.ofFields (w : Nat) : List (Option Json) → Res (Fuse w)
  | [a, b, c] => do
    let seed ← req (decWord 64) a
    let sl ← req decUsize b
    let fps ← req (decList (decWord w)) c
    .ok { seed := seed, segmentLength := sl, fingerprints := fps }
  | _ => .err .json

/-- `#[derive(Deserialize)]` of `Fuse8/16/32` (bff-modp/src/fuse8.rs:61-70, fuse16.rs:61-70, fuse32.rs:61-70). -/
def Fuse.fromJson (w : Nat) (j : Json) : Res (Fuse w) :=
  structFields ["seed", "segment_length", "fingerprints"] j >>= Fuse.ofFields w

/-- `#[derive(Serialize)]` of `Xor8/16/32` (bff-modp/src/xor8.rs:51-59, xor16.rs:51-59, xor32.rs:51-59). -/
def Xor.toJson {w : Nat} (f : Xor w) : Json :=
  .obj [("seed", jNat f.seed.toNat), ("block_length", jNat f.blockLength), ("fingerprints", jWords f.fingerprints)]

/-- The fields of `Xor8/16/32`, decoded (bff-modp/src/xor8.rs:52-59). -/
def Xor.ofFields (w : Nat) : List (Option Json) → Res (Xor w)
  | [a, b, c] => do
    let seed ← req (decWord 64) a
    let bl ← req decUsize b
    let fps ← req (decList (decWord w)) c
    .ok { seed := seed, blockLength := bl, fingerprints := fps }
  | _ => .err .json

/-- `#[derive(Deserialize)]` of `Xor8/16/32` (bff-modp/src/xor8.rs:51-59, xor16.rs:51-59, xor32.rs:51-59). -/
def Xor.fromJson (w : Nat) (j : Json) : Res (Xor w) :=
  structFields ["seed", "block_length", "fingerprints"] j >>= Xor.ofFields w

/-- `#[derive(Serialize)]` of `HashProxy` (bff-modp/src/hash_proxy.rs:83-93); `PhantomData` is `null`. -/
def HashProxy.toJson {F : Type} (enc : F → Json) (f : F) : Json :=
  .obj [("filter", enc f), ("_hasher", .null), ("_type", .null)]

/-- The fields of `HashProxy`, decoded (bff-modp/src/hash_proxy.rs:84-93). -/
def HashProxy.ofFields {F : Type} (dec : Json → Res F) : List (Option Json) → Res F
  | [a, b, c] => do
    let f ← req dec a
    let _ ← req decNull b
    let _ ← req decNull c
    .ok f
  | _ => .err .json

/-- `#[derive(Deserialize)]` of `HashProxy` (bff-modp/src/hash_proxy.rs:83-93). -/
def HashProxy.fromJson {F : Type} (dec : Json → Res F) (j : Json) : Res F :=
  structFields ["filter", "_hasher", "_type"] j >>= HashProxy.ofFields dec

/-! ## Lookups in filters with arbitrary contents -/

/-- Rust `a * b` on an unsigned machine integer: panics on overflow under overflow checks, otherwise wraps
(bff-modp/src/prelude/mod.rs:87, prelude/fuse.rs:37-39, prelude/xor.rs:46). -/
def mulC {w : Nat} (prof : Profile) (a b : BitVec w) : Res (BitVec w) :=
  match prof with
  | .release => .ok (a * b)
  | .debug => if a.toNat * b.toNat < 2 ^ w then .ok (a * b) else .panic

/-- `reduce!` on any `usize` interval (bff-modp/src/prelude/mod.rs:85-89). -/
def reduceC (prof : Profile) (hash : U32) (n : U64) : Res U64 := do
  let p ← mulC prof (hash.setWidth 64) n
  .ok (p >>> 32)

/-- `Xor8/16/32::contains` (bff-modp/src/xor8.rs:61-65, prelude/xor.rs:4-16, 30-49) with overflow checks. -/
def Xor.containsC {w : Nat} (prof : Profile) (f : Xor w) (key : U64) : Res Bool := do
  let hash := mix key f.seed
  let bl : U64 := BitVec.ofNat 64 f.blockLength
  let h0 ← reduceC prof ((rotl64 hash 0).setWidth 32) bl
  let h1 ← reduceC prof ((rotl64 hash 21).setWidth 32) bl
  let h2 ← reduceC prof ((rotl64 hash 42).setWidth 32) bl
  let a ← rd f.fingerprints h0.toNat
  let i1 ← addC prof h1 bl
  let b ← rd f.fingerprints i1.toNat
  let d ← mulC prof 2#64 bl
  let i2 ← addC prof h2 d
  let c ← rd f.fingerprints i2.toNat
  .ok (decide ((fingerprint hash).setWidth w = a ^^^ b ^^^ c))

/-- `H012::from` (bff-modp/src/prelude/fuse.rs:23-42) with overflow checks. -/
def h012C (prof : Profile) (hash : U64) (sl : U64) : Res (U64 × U64 × U64) := do
  let r0 : U32 := hash.setWidth 32
  let r1 : U32 := (rotl64 hash 21).setWidth 32
  let r2 : U32 := (rotl64 hash 42).setWidth 32
  let r3 : U32 := ((0xbf58476d1ce4e5b9#64 * hash) >>> 32).setWidth 32
  let seg ← reduceC prof r0 100#64
  let a0 ← mulC prof seg sl
  let b0 ← reduceC prof r1 sl
  let h0 ← addC prof a0 b0
  let s1 ← addC prof seg 1#64
  let a1 ← mulC prof s1 sl
  let b1 ← reduceC prof r2 sl
  let h1 ← addC prof a1 b1
  let s2 ← addC prof seg 2#64
  let a2 ← mulC prof s2 sl
  let b2 ← reduceC prof r3 sl
  let h2 ← addC prof a2 b2
  .ok (h0, h1, h2)

/-- `Fuse8/16/32::contains` (bff-modp/src/fuse8.rs:72-76, prelude/fuse.rs:47-63) with overflow checks. -/
def Fuse.containsC {w : Nat} (prof : Profile) (f : Fuse w) (key : U64) : Res Bool := do
  let hash := mix key f.seed
  let (h0, h1, h2) ← h012C prof hash (BitVec.ofNat 64 f.segmentLength)
  let a ← rd f.fingerprints h0.toNat
  let b ← rd f.fingerprints h1.toNat
  let c ← rd f.fingerprints h2.toNat
  .ok (decide ((fingerprint hash).setWidth w = a ^^^ b ^^^ c))

/-- `BinaryFuse8/16/32::contains` (bff-modp/src/bfuse8.rs:71-73, prelude/bfuse.rs:281-300) with the overflow checks
of `hash_of_hash`. -/
def BinaryFuse.containsC {w : Nat} (prof : Profile) (f : BinaryFuse w) (key : U64) : Res Bool := do
  let hash := mix key f.seed
  let (h0, h1, h2) ← hashOfHashC prof hash f.geom
  let f0 ← rd f.fingerprints h0.toNat
  let f1 ← rd f.fingerprints h1.toNat
  let f2 ← rd f.fingerprints h2.toNat
  .ok (decide ((fingerprint hash).setWidth w ^^^ (f0 ^^^ f1 ^^^ f2) = 0#w))

/-- `BinaryFuseP32::retrieve` (bff-modp/src/bfusep32.rs:91-93, prelude/bfusep.rs:233-250) with the overflow checks of
`hash_of_hash`. -/
def BinaryFuseP32.retrieveC (prof : Profile) (f : BinaryFuseP32) (key : Key) (label : U64) : Res U32 := do
  let hash ← mix256 key f.seed
  let (h0, h1, h2) ← hashOfHashC prof hash f.geom
  let f0 ← rd f.fingerprints h0.toNat
  let f1 ← rd f.fingerprints h1.toNat
  let f2 ← rd f.fingerprints h2.toNat
  let p : U32 := f.ptxtMod.setWidth 32
  if p = 0#32 ∨ f.ptxtMod = 0#64 then .panic
  else
    let mask : U32 := (mix hash label % f.ptxtMod).setWidth 32
    .ok ((f0 + f1 + f2 + mask) % p)

end Chalamet
