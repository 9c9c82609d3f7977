import Verif.Model.Hash

/-!
# Model of the Xor and Fuse filters of `bff-modp`, and of `HashProxy`

`xor_from_impl!`, `xor_contains_impl!` (prelude/xor.rs), `fuse_from_impl!`, `fuse_contains_impl!`
(prelude/fuse.rs), `try_enqueue!` (prelude/mod.rs), `hash_proxy.rs`. The three fingerprint types
`u8/u16/u32` are the width `w` (the macros are instantiated with no other difference:
bff-modp/src/xor8.rs:72-76, xor16.rs, xor32.rs, fuse8.rs:83-89, fuse16.rs, fuse32.rs).

Conventions / simplifications:
* the capacity computed in floating point is an argument: `c0` is `(1.23 * num_keys as f64) as usize`
  for Xor and `(FUSE_OVERHEAD * num_keys as f64) as usize` for Fuse;
* a queue `Q[..q_size]` and the stack `stack[..stack_size]` are lists with the top first; a push beyond
  the allocated length panics;
* `all_distinct` (prelude/mod.rs:151-156) is `List.Nodup`;
* the products in `reduce!` are taken in `Nat` (see `reduce`).
-/

namespace Chalamet

/-- `struct HSet` (bff-modp/src/prelude/mod.rs:30-34). -/
structure HSet where
  count : U32
  mask : U64
  deriving DecidableEq, Repr

/-- `HSet::default()` (bff-modp/src/prelude/mod.rs:30). -/
def HSet.zero : HSet := { count := 0#32, mask := 0#64 }

/-- `H[i].mask ^= hash; H[i].count += 1` (bff-modp/src/prelude/xor.rs:100-101, fuse.rs:109-110). -/
def hAdd (prof : Profile) (H : List HSet) (i : Nat) (hash : U64) : Res (List HSet) := do
  let s ← rd H i
  let c ← addC prof s.count 1#32
  wr H i { count := c, mask := s.mask ^^^ hash }

/-- `H[i].mask ^= hash; H[i].count -= 1` (bff-modp/src/prelude/xor.rs:136-137, fuse.rs:136-137). -/
def hRemove (prof : Profile) (H : List HSet) (i : Nat) (hash : U64) : Res (List HSet) := do
  let s ← rd H i
  let c ← subC prof s.count 1#32
  wr H i { count := c, mask := s.mask ^^^ hash }

/-- A queue entry or stack entry: `struct KeyIndex` (bff-modp/src/prelude/mod.rs:22-27). -/
structure KeyIndex where
  hash : U64
  index : Nat
  deriving DecidableEq, Repr

/-- `try_enqueue!` (bff-modp/src/prelude/mod.rs:140-147); `cap` is the allocated queue length. -/
def tryEnqueue (H : List HSet) (cap : Nat) (q : List KeyIndex) (idx : Nat) : Res (List KeyIndex) := do
  let s ← rd H idx
  if s.count = 1#32 then
    if cap ≤ q.length then .panic
    else .ok ({ hash := s.mask, index := idx } :: q)
  else .ok q

/-! ## Fuse8/16/32 -/

/-- `SLOTS` (bff-modp/src/prelude/fuse.rs:6). -/
def fuseSlots : Nat := 102

/-- The three slots of a hash, as a list (bff-modp/src/prelude/fuse.rs:23-42). -/
def fuseHset (segmentLength : Nat) (hash : U64) : List Nat :=
  [(h012 hash segmentLength).1, (h012 hash segmentLength).2.1, (h012 hash segmentLength).2.2]

/-- Populating `H` with one hash (bff-modp/src/prelude/fuse.rs:105-112). -/
def fuseAddKey (prof : Profile) (sl : Nat) (H : List HSet) (hash : U64) : Res (List HSet) :=
  foldRes (fun H i => hAdd prof H i hash) H (fuseHset sl hash)

/-- State of the peeling loop
(bff-modp/src/prelude/fuse.rs:115-145). -/
structure FState where
  H : List HSet
  q : List KeyIndex
  stk : List KeyIndex
  deriving DecidableEq, Repr

/-- Removing a peeled hash from one of its sets (bff-modp/src/prelude/fuse.rs:134-140). -/
def fuseRemoveAt (prof : Profile) (cap : Nat) (hash : U64) (s : FState) (i : Nat) : Res FState := do
  let H ← hRemove prof s.H i hash
  let q ← tryEnqueue H cap s.q i
  .ok { s with H := H, q := q }

/-- Body of the peeling loop for the popped `ki` (bff-modp/src/prelude/fuse.rs:124-140); `s.q` is the
queue after the pop. -/
def fusePeelStep (prof : Profile) (sl cap n : Nat) (s : FState) (ki : KeyIndex) : Res FState := do
  let set ← rd s.H ki.index
  if set.count = 0#32 then .ok s
  else if n ≤ s.stk.length then .panic
  else foldRes (fuseRemoveAt prof cap ki.hash) { s with stk := ki :: s.stk } (fuseHset sl ki.hash)

/-- `while q_size > 0` (bff-modp/src/prelude/fuse.rs:122-141) with at most `fuel` iterations. -/
def fusePeelLoop (prof : Profile) (sl cap n : Nat) : Nat → FState → Res FState
  | 0, s => if s.q = [] then .ok s else .diverge
  | fuel + 1, s =>
    match s.q with
    | [] => .ok s
    | ki :: q => do
      let s' ← fusePeelStep prof sl cap n { s with q := q } ki
      fusePeelLoop prof sl cap n fuel s'

/-- One attempt (bff-modp/src/prelude/fuse.rs:104-146): the stack when all keys were peeled. `H` is
all zeroes at the start of every attempt (fuse.rs:95 and 149-151). The queue has at most `cap` entries and a
peeled key adds at most three, so `cap + 3 n` iterations suffice (`fusePeelLoop_fuel`). -/
def fuseAttempt (prof : Profile) (sl cap : Nat) (hashes : List U64) : Res (Option (List KeyIndex)) := do
  let H ← foldRes (fuseAddKey prof sl) (List.replicate cap HSet.zero) hashes
  let q ← foldRes (tryEnqueue H cap) [] (List.range cap)
  let s ← fusePeelLoop prof sl cap hashes.length (cap + 3 * hashes.length) { H := H, q := q, stk := [] }
  if s.stk.length = hashes.length then .ok (some s.stk) else .ok none

/-- The retry loop (bff-modp/src/prelude/fuse.rs:99-157). -/
def fuseLoop (prof : Profile) (sl cap : Nat) (keys : List U64) :
    Nat → U64 → U64 → Res (List KeyIndex × U64)
  | 0, _, _ => .err .filterFailed
  | n + 1, rng, seed => do
    match ← fuseAttempt prof sl cap (keys.map fun k => mix k seed) with
    | some stk => .ok (stk, seed)
    | none => fuseLoop prof sl cap keys n (splitmix64 rng).1 (splitmix64 rng).2

/-- Body of the assignment loop (bff-modp/src/prelude/fuse.rs:162-171); `unreachable!()` panics. -/
def fuseAssignStep {w : Nat} (sl : Nat) (B : List (BitVec w)) (ki : KeyIndex) :
    Res (List (BitVec w)) := do
  let (h0, h1, h2) := h012 ki.hash sl
  let x ←
    if ki.index = h0 then do
      let a ← rd B h1
      let b ← rd B h2
      Res.ok (a ^^^ b)
    else if ki.index = h1 then do
      let a ← rd B h0
      let b ← rd B h2
      Res.ok (a ^^^ b)
    else if ki.index = h2 then do
      let a ← rd B h0
      let b ← rd B h1
      Res.ok (a ^^^ b)
    else Res.panic
  wr B ki.index ((fingerprint ki.hash).setWidth w ^^^ x)

/-- `struct Fuse8/16/32` (bff-modp/src/fuse8.rs:63-70). -/
structure Fuse (w : Nat) where
  seed : U64
  segmentLength : Nat
  fingerprints : List (BitVec w)
  deriving DecidableEq, Repr

/-- `fuse_from_impl!` (bff-modp/src/prelude/fuse.rs:68-180). `fp0` is what `make_fp_block!` puts in the
array. -/
def fuseFromImpl (w : Nat) (prof : Profile) (c0 maxIter : Nat) (fp0 : Nat → BitVec w)
    (keys : List U64) : Res (Fuse w) := do
  if prof = .debug ∧ ¬ keys.Nodup then .panic
  else do
    let cap := c0 / fuseSlots * fuseSlots
    let sl := cap / fuseSlots
    let (stk, seed) ← fuseLoop prof sl cap keys maxIter (splitmix64 1#64).1 (splitmix64 1#64).2
    let B ← foldRes (fuseAssignStep sl) ((List.range cap).map fp0) stk
    .ok { seed := seed, segmentLength := sl, fingerprints := B }

/-- `Fuse8/16/32::try_from` (bff-modp/src/fuse8.rs:83-89). -/
def Fuse.tryFrom (w : Nat) (prof : Profile) (c0 : Nat) (fp0 : Nat → BitVec w) (keys : List U64) :
    Res (Fuse w) :=
  fuseFromImpl w prof c0 1000 fp0 keys

/-- `Fuse8/16/32::contains` (bff-modp/src/fuse8.rs:72-76, prelude/fuse.rs:47-63). -/
def Fuse.contains {w : Nat} (f : Fuse w) (key : U64) : Res Bool := do
  let hash := mix key f.seed
  let (h0, h1, h2) := h012 hash f.segmentLength
  let a ← rd f.fingerprints h0
  let b ← rd f.fingerprints h1
  let c ← rd f.fingerprints h2
  .ok (decide ((fingerprint hash).setWidth w = a ^^^ b ^^^ c))

/-- `Fuse8/16/32::len` (bff-modp/src/fuse8.rs:78-80, fuse16.rs:78-80, fuse32.rs:78-80). -/
def Fuse.len {w : Nat} (f : Fuse w) : Nat := f.fingerprints.length

/-! ## Xor8/16/32 -/

/-- Populating the three blocks of `H` with one hash (bff-modp/src/prelude/xor.rs:95-103). -/
def xorAddKey (prof : Profile) (bl : Nat) (H : List (List HSet)) (hash : U64) :
    Res (List (List HSet)) :=
  foldRes (fun H b => do
    let Hb ← rd H b
    let Hb ← hAdd prof Hb (xorH b bl hash) hash
    wr H b Hb) H [0, 1, 2]

/-- State of the peeling loop: the blocks of `H`, the three queues, the stack
(bff-modp/src/prelude/xor.rs:105-150). -/
structure XState where
  H : List (List HSet)
  Q : List (List KeyIndex)
  stk : List KeyIndex
  deriving DecidableEq, Repr

/-- `try_enqueue!(block H[b], set idx; queue block Q[b], ..)` (bff-modp/src/prelude/xor.rs:109-110,
138-139). -/
def xorEnqueue (cap b : Nat) (H : List (List HSet)) (Q : List (List KeyIndex)) (idx : Nat) :
    Res (List (List KeyIndex)) := do
  let Hb ← rd H b
  let Qb ← rd Q b
  let Qb ← tryEnqueue Hb cap Qb idx
  wr Q b Qb

/-- The scan for singletons (bff-modp/src/prelude/xor.rs:105-112). -/
def xorScan (cap bl : Nat) (H : List (List HSet)) (Q : List (List KeyIndex)) :
    Res (List (List KeyIndex)) :=
  foldRes (fun Q b => foldRes (xorEnqueue cap b H) Q (List.range bl)) Q [0, 1, 2]

/-- Removing a peeled hash from its set in block `j` (bff-modp/src/prelude/xor.rs:134-140). -/
def xorRemoveAt (prof : Profile) (cap bl : Nat) (hash : U64) (s : XState) (j : Nat) : Res XState := do
  let Hj ← rd s.H j
  let Hj ← hRemove prof Hj (xorH j bl hash) hash
  let H ← wr s.H j Hj
  let Q ← xorEnqueue cap j H s.Q (xorH j bl hash)
  .ok { s with H := H, Q := Q }

/-- Body of `dequeue!` for block `b` and the popped `ki` (bff-modp/src/prelude/xor.rs:119-140). The set
the key is alone in is *not* decremented. -/
def xorPeelStep (prof : Profile) (cap bl n b : Nat) (others : List Nat) (s : XState) (ki : KeyIndex) :
    Res XState := do
  let Hb ← rd s.H b
  let set ← rd Hb ki.index
  if set.count = 0#32 then .ok s
  else if n ≤ s.stk.length then .panic
  else
    let s' := { s with stk := { hash := ki.hash, index := ki.index + b * bl } :: s.stk }
    foldRes (xorRemoveAt prof cap bl ki.hash) s' others

/-- `dequeue!(block b, other blocks being others)` (bff-modp/src/prelude/xor.rs:116-147): pops until
queue `b` is empty. The body never touches queue `b` itself, so this is a loop over its contents. -/
def xorDequeue (prof : Profile) (cap bl n b : Nat) (others : List Nat) (s : XState) : Res XState := do
  let Qb ← rd s.Q b
  let Q ← wr s.Q b []
  foldRes (xorPeelStep prof cap bl n b others) { s with Q := Q } Qb

/-- `while q_sizes.iter().sum() > 0` (bff-modp/src/prelude/xor.rs:115-148) with at most `fuel`
iterations. -/
def xorPeelLoop (prof : Profile) (cap bl n : Nat) : Nat → XState → Res XState
  | 0, s => if (s.Q.map List.length).sum = 0 then .ok s else .diverge
  | fuel + 1, s =>
    if (s.Q.map List.length).sum = 0 then .ok s
    else do
      let s ← xorDequeue prof cap bl n 0 [1, 2] s
      let s ← xorDequeue prof cap bl n 1 [0, 2] s
      let s ← xorDequeue prof cap bl n 2 [0, 1] s
      xorPeelLoop prof cap bl n fuel s

/-- One attempt (bff-modp/src/prelude/xor.rs:94-152): the stack when all keys were peeled. `H` is all
zeroes at the start of every attempt (xor.rs:78-82 and 155-159). The queues have at most `cap` entries
each and a peeled key adds at most two, so `3 cap + 2 n` iterations suffice (`xorPeelLoop_fuel`). -/
def xorAttempt (prof : Profile) (cap bl : Nat) (hashes : List U64) : Res (Option (List KeyIndex)) := do
  let H ← foldRes (xorAddKey prof bl) (List.replicate 3 (List.replicate cap HSet.zero)) hashes
  let Q ← xorScan cap bl H (List.replicate 3 [])
  let s ← xorPeelLoop prof cap bl hashes.length (3 * cap + 2 * hashes.length) { H := H, Q := Q, stk := [] }
  if s.stk.length = hashes.length then .ok (some s.stk) else .ok none

/-- The unbounded `loop` (bff-modp/src/prelude/xor.rs:93-161), observed for `n` attempts: `diverge`
means it has not ended within `n` attempts. The loop terminates iff this is not `diverge` for some `n`. -/
def xorLoop (prof : Profile) (cap bl : Nat) (keys : List U64) :
    Nat → U64 → U64 → Res (List KeyIndex × U64)
  | 0, _, _ => .diverge
  | n + 1, rng, seed => do
    match ← xorAttempt prof cap bl (keys.map fun k => mix k seed) with
    | some stk => .ok (stk, seed)
    | none => xorLoop prof cap bl keys n (splitmix64 rng).1 (splitmix64 rng).2

/-- Body of the assignment loop (bff-modp/src/prelude/xor.rs:166-171). -/
def xorAssignStep {w : Nat} (bl : Nat) (B : List (BitVec w)) (ki : KeyIndex) : Res (List (BitVec w)) := do
  let a ← rd B (xorH 0 bl ki.hash)
  let b ← rd B (xorH 1 bl ki.hash + bl)
  let c ← rd B (xorH 2 bl ki.hash + 2 * bl)
  wr B ki.index ((fingerprint ki.hash).setWidth w ^^^ a ^^^ b ^^^ c)

/-- `struct Xor8/16/32` (bff-modp/src/xor8.rs:52-59). -/
structure Xor (w : Nat) where
  seed : U64
  blockLength : Nat
  fingerprints : List (BitVec w)
  deriving DecidableEq, Repr

/-- `xor_from_impl!` (bff-modp/src/prelude/xor.rs:51-181), `Xor8/16/32::from` (bff-modp/src/xor8.rs:72-88),
observed for `n` attempts. -/
def Xor.fromWithin (w : Nat) (prof : Profile) (c0 : Nat) (keys : List U64) (n : Nat) : Res (Xor w) := do
  if prof = .debug ∧ ¬ keys.Nodup then .panic
  else do
    let cap := (c0 + 32) / 3 * 3
    let bl := cap / 3
    let (stk, seed) ← xorLoop prof cap bl keys n (splitmix64 1#64).1 (splitmix64 1#64).2
    let B ← foldRes (xorAssignStep bl) (List.replicate cap 0#w) stk
    .ok { seed := seed, blockLength := bl, fingerprints := B }

/-- `Xor8/16/32::contains` (bff-modp/src/xor8.rs:61-65, prelude/xor.rs:30-49). -/
def Xor.contains {w : Nat} (f : Xor w) (key : U64) : Res Bool := do
  let hash := mix key f.seed
  let a ← rd f.fingerprints (xorH 0 f.blockLength hash)
  let b ← rd f.fingerprints (xorH 1 f.blockLength hash + f.blockLength)
  let c ← rd f.fingerprints (xorH 2 f.blockLength hash + 2 * f.blockLength)
  .ok (decide ((fingerprint hash).setWidth w = a ^^^ b ^^^ c))

/-- `Xor8/16/32::len` (bff-modp/src/xor8.rs:67-69, xor16.rs:67-69, xor32.rs:67-69). -/
def Xor.len {w : Nat} (f : Xor w) : Nat := f.fingerprints.length

/-! ## HashProxy -/

/-- `HashProxy::from` (bff-modp/src/hash_proxy.rs:120-145): `mk` is `F::from(Vec<u64>)`, `hash` is the
hasher of the proxy (`hash::<T, H>`, hash_proxy.rs:97-102). -/
def HashProxy.from {K F : Type} (mk : List U64 → Res F) (hash : K → U64) (keys : List K) : Res F :=
  mk (keys.map hash)

/-- `HashProxy::contains` (bff-modp/src/hash_proxy.rs:110-113). -/
def HashProxy.contains {K F : Type} (has : F → U64 → Res Bool) (hash : K → U64) (f : F) (key : K) :
    Res Bool :=
  has f (hash key)

/-- `HashProxy::len` (bff-modp/src/hash_proxy.rs:115-117): the length of the inner filter. -/
def HashProxy.len {F : Type} (len : F → Nat) (f : F) : Nat := len f

end Chalamet
