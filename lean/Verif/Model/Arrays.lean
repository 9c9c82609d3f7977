import Verif.Model.BFuse
import Verif.Model.Fuse

/-!
# Array-level model of the filter constructions

`Model/BFuse.lean` and `Model/Fuse.lean` describe queues and stacks as lists. This file is closer to the text of the
macros: every `make_block!` array is an array that is allocated once, overwritten in place and *reused by the next
attempt*, queues and stacks are an array and a size variable, and values popped from them stay in memory. C79 proves
that the two descriptions have the same outcome on every input.

`P:` are lines of prelude/bfusep.rs, `X:` lines of prelude/bfuse.rs. A `while` loop is observed for `fuel` iterations:
`diverge` means that it has not ended by then.
-/

namespace Chalamet

/-! ## Binary fuse filters -/

/-- The arrays allocated before the first attempt and used by all (P:55-75, X:108-127). -/
structure Arrays where
  alone : List U32
  t2count : List U8
  t2hash : List U64
  reverseH : List U8
  reverseOrder : List U64
  startPos : List Nat
  h012 : List U32

/-- Allocation (P:54-75, X:107-127); `reverse_order[size] = 1`. -/
def Arrays.init (size capacity bb : Nat) : Arrays where
  alone := List.replicate capacity 0#32
  t2count := List.replicate capacity 0#8
  t2hash := List.replicate capacity 0#64
  reverseH := List.replicate size 0#8
  reverseOrder := (List.replicate (size + 1) 0#64).set size 1#64
  startPos := List.replicate (2 ^ bb) 0
  h012 := List.replicate 6 0#32

/-- `for i in 0..start_pos_len { start_pos[i] = .. }` (P:78-80, X:130-132). -/
def arrStartPos (size bb : Nat) (startPos : List Nat) : Res (List Nat) :=
  foldRes (fun sp i => wr sp i ((i * size) / 2 ^ bb)) startPos (List.range (2 ^ bb))

/-- The hash map `hm_keys` (P:62): the pairs inserted so far, latest first; `get` finds the latest. -/
abbrev HMap := List (U64 × U32)

/-- Body of the bucketing loop (P:81-91) for index `i`: `hm_keys` is filled along the way. -/
def arrBucketStepP (bb : Nat) (seed : List U8) (keys : List Key) (data : List U32)
    (s : List Nat × List U64 × HMap) (i : Nat) : Res (List Nat × List U64 × HMap) := do
  let (startPos, reverseOrder, hm) := s
  let key ← rd keys i
  let hash ← mix256 key seed
  let segmentIndex ← probe bb startPos reverseOrder (2 ^ bb) (hash.toNat / 2 ^ (64 - bb))
  let p ← rd startPos segmentIndex
  let reverseOrder ← wr reverseOrder p hash
  let d ← rd data i
  let hm := (hash, d) :: hm
  let p ← rd startPos segmentIndex
  let startPos ← wr startPos segmentIndex (p + 1)
  .ok (startPos, reverseOrder, hm)

/-- The counting loop (P:95-126, X:146-177): `for i in 0..size` with `hash = reverse_order[i]`. -/
def arrCount (prof : Profile) (g : Geom) (size : Nat) (reverseOrder : List U64) (t : T2) : Res CState :=
  foldRes (fun c i => do
    let hash ← rd reverseOrder i
    countStep prof g c hash) { t := t, duplicates := 0, error := false } (List.range size)

/-- The enqueueing loop (P:132-139, X:183-190): `alone[qsize] = i` is stored in any case. -/
def arrEnqueue (capacity : Nat) (t2count : List U8) (alone : List U32) : Res (List U32 × Nat) :=
  foldRes (fun (s : List U32 × Nat) i => do
    let alone ← wr s.1 s.2 (BitVec.ofNat 32 i)
    let c ← rd t2count i
    .ok (alone, if c.toNat / 4 = 1 then s.2 + 1 else s.2)) (alone, 0) (List.range capacity)

/-- Variables of the peeling loop (P:140-176, X:191-227). -/
structure PArr where
  alone : List U32
  qsize : Nat
  t : T2
  reverseH : List U8
  reverseOrder : List U64
  stackSize : Nat
  h012 : List U32

/-- One "other" index of a peeled key (P:158-165 and P:167-174, X:209-216 and X:218-225). -/
def arrPeelOther (prof : Profile) (s : PArr) (other : U32) (x : U8) (hash : U64) : Res PArr := do
  let alone ← wr s.alone s.qsize other
  let c ← rd s.t.1 other.toNat
  let qsize := if c.toNat / 4 = 2 then s.qsize + 1 else s.qsize
  let t ← unbump prof s.t other.toNat x hash
  .ok { s with alone := alone, qsize := qsize, t := t }

/-- Body of the peeling loop after `qsize -= 1` (P:143-175, X:194-226). -/
def arrPeelStep (prof : Profile) (g : Geom) (s : PArr) : Res PArr := do
  let i ← rd s.alone s.qsize
  let index := i.toNat
  let c ← rd s.t.1 index
  if c.toNat / 4 = 1 then do
    let hash ← rd s.t.2 index
    let found := c.toNat % 4
    let reverseH ← wr s.reverseH s.stackSize (BitVec.ofNat 8 found)
    let reverseOrder ← wr s.reverseOrder s.stackSize hash
    let (index1, index2, index3) := hashOfHash hash g
    let h ← wr s.h012 1 index2
    let h ← wr h 2 index3
    let h ← wr h 3 index1
    let h1 ← rd h 1
    let h ← wr h 4 h1
    let s := { s with reverseH := reverseH, reverseOrder := reverseOrder, stackSize := s.stackSize + 1, h012 := h }
    let other1 ← rd s.h012 (found + 1)
    let s ← arrPeelOther prof s other1 (BitVec.ofNat 8 (mod3 (found + 1))) hash
    let other2 ← rd s.h012 (found + 2)
    arrPeelOther prof s other2 (BitVec.ofNat 8 (mod3 (found + 2))) hash
  else .ok s

/-- `while qsize > 0 { qsize -= 1; .. }` (P:141-176, X:192-227). -/
def arrPeelLoop (prof : Profile) (g : Geom) : Nat → PArr → Res PArr
  | 0, s => if s.qsize = 0 then .ok s else .diverge
  | fuel + 1, s =>
    if s.qsize = 0 then .ok s
    else do
      let s ← arrPeelStep prof g { s with qsize := s.qsize - 1 }
      arrPeelLoop prof g fuel s

/-- `for i in 0..n { a[i] = v }`: the reset loops (P:185-191, X:236-242). -/
def arrFill {α : Type} (n : Nat) (v : α) (a : List α) : Res (List α) :=
  foldRes (fun a i => wr a i v) a (List.range n)

/-- How an attempt ends: `break` with `ultimate_size` (P:178-182, X:229-233), or the next attempt, after a reset
(P:184-191, X:235-242) or directly after `continue` (P:127-129, X:178-180). -/
inductive ArrEnd where
  | done (ultimateSize : Nat)
  | peelFailed
  | countError

/-- An attempt from the counting loop on (P:93-191, X:144-242). -/
def arrRest (prof : Profile) (lay : Layout) (size fuel : Nat) (a : Arrays) : Res (ArrEnd × Arrays) := do
  let capacity := lay.arrayLen
  let c ← arrCount prof lay.geom size a.reverseOrder (a.t2count, a.t2hash)
  if c.error then .ok (.countError, { a with t2count := c.t.1, t2hash := c.t.2 })
  else do
    let (alone, qsize) ← arrEnqueue capacity c.t.1 a.alone
    let s ← arrPeelLoop prof lay.geom fuel { alone := alone, qsize := qsize, t := c.t, reverseH := a.reverseH, reverseOrder := a.reverseOrder, stackSize := 0, h012 := a.h012 }
    let a := { a with alone := s.alone, t2count := s.t.1, t2hash := s.t.2, reverseH := s.reverseH, reverseOrder := s.reverseOrder, h012 := s.h012 }
    if s.stackSize + c.duplicates = size then .ok (.done s.stackSize, a)
    else do
      let reverseOrder ← arrFill size 0#64 a.reverseOrder
      let t2count ← arrFill capacity 0#8 a.t2count
      let t2hash ← arrFill capacity 0#64 a.t2hash
      .ok (.peelFailed, { a with reverseOrder := reverseOrder, t2count := t2count, t2hash := t2hash })

/-- The retry loop of `bfusep_from_impl!` (P:77-195). Returns `ultimate_size` and the memory. -/
def arrLoopP (prof : Profile) (lay : Layout) (seed : List U8) (keys : List Key) (data : List U32) (fuel : Nat) :
    Nat → Arrays → HMap → Res (Nat × Arrays × HMap)
  | 0, _, _ => .err .filterFailed
  | n + 1, a, hm => do
    let bb := blockBits lay.segmentCount
    let startPos ← arrStartPos keys.length bb a.startPos
    let (startPos, reverseOrder, hm) ← foldRes (arrBucketStepP bb seed keys data)
      (startPos, a.reverseOrder, hm) (List.range keys.length)
    let (e, a) ← arrRest prof lay keys.length fuel { a with startPos := startPos, reverseOrder := reverseOrder }
    match e with
    | .done ultimateSize => .ok (ultimateSize, a, hm)
    | _ => arrLoopP prof lay seed keys data fuel n a hm

/-- Writing `h012` in the assignment loops (P:205-209, X:257-261). -/
def arrH012 (g : Geom) (hash : U64) (h : List U32) : Res (List U32) := do
  let (index1, index2, index3) := hashOfHash hash g
  let h ← wr h 0 index1
  let h ← wr h 1 index2
  let h ← wr h 2 index3
  let h0 ← rd h 0
  let h ← wr h 3 h0
  let h1 ← rd h 1
  wr h 4 h1

/-- Body of the assignment loop (P:199-215) for index `i`; the state is `h012` and `fingerprints`. -/
def arrAssignStepP (g : Geom) (a : Arrays) (hm : HMap) (label ptxtMod : U64)
    (s : List U32 × List U32) (i : Nat) : Res (List U32 × List U32) := do
  let hash ← rd a.reverseOrder i
  match hm.lookup hash with
  | none => .panic
  | some d => do
    let found ← rd a.reverseH i
    let h ← arrH012 g hash s.1
    let p : U32 := ptxtMod.setWidth 32
    if p = 0#32 ∨ ptxtMod = 0#64 then .panic
    else do
      let x ← rd h (found.toNat + 1)
      let fx ← rd s.2 x.toNat
      let y ← rd h (found.toNat + 2)
      let fy ← rd s.2 y.toNat
      let entry := (d % p - fx - fy) % p
      let mask : U32 := (mix hash label % ptxtMod).setWidth 32
      let z ← rd h found.toNat
      let fp ← wr s.2 z.toNat ((entry - mask) % p)
      .ok (h, fp)

/-- `bfusep_from_impl!` (P:7-227); every `while qsize > 0` is observed for `fuel` iterations. -/
def arrFromP (prof : Profile) (segExp cap0 maxIter fuel : Nat) (fp0 : Nat → U32)
    (seed : List U8) (keys : List Key) (data : List U32) (label ptxtMod : U64) : Res BinaryFuseP32 := do
  if prof = .debug ∧ (¬ keys.Nodup ∨ ptxtMod.toNat < 256) then .panic
  else do
    let size := keys.length
    let lay ← bfLayout size segExp cap0
    let (ultimateSize, a, hm) ← arrLoopP prof lay seed keys data fuel maxIter
      (Arrays.init size lay.arrayLen (blockBits lay.segmentCount)) []
    let (_, fp) ← foldRes (arrAssignStepP lay.geom a hm label ptxtMod)
      (a.h012, (List.range lay.arrayLen).map fp0) (List.range ultimateSize).reverse
    .ok { seed := seed, geom := lay.geom, fingerprints := fp, ptxtMod := ptxtMod }

/-- Body of the bucketing loop of `bfuse_from_impl!` (X:133-142): `for key in keys.iter()`. -/
def arrBucketStepX (bb : Nat) (seed : U64) (s : List Nat × List U64) (key : U64) : Res (List Nat × List U64) :=
  bucketStep bb s (mix key seed)

/-- The retry loop of `bfuse_from_impl!` (X:129-247). -/
def arrLoopX (prof : Profile) (lay : Layout) (keys : List U64) (fuel : Nat) :
    Nat → U64 → U64 → Arrays → Res (Nat × U64 × Arrays)
  | 0, _, _, _ => .err .filterFailed
  | n + 1, rng, seed, a => do
    let bb := blockBits lay.segmentCount
    let startPos ← arrStartPos keys.length bb a.startPos
    let (startPos, reverseOrder) ← foldRes (arrBucketStepX bb seed) (startPos, a.reverseOrder) keys
    let (e, a) ← arrRest prof lay keys.length fuel { a with startPos := startPos, reverseOrder := reverseOrder }
    match e with
    | .done ultimateSize => .ok (ultimateSize, seed, a)
    | .peelFailed => arrLoopX prof lay keys fuel n (splitmix64 rng).1 (splitmix64 rng).2 a
    | .countError => arrLoopX prof lay keys fuel n rng seed a

/-- Body of the assignment loop (X:251-265) for index `i`. -/
def arrAssignStepX {w : Nat} (g : Geom) (a : Arrays) (s : List U32 × List (BitVec w)) (i : Nat) :
    Res (List U32 × List (BitVec w)) := do
  let hash ← rd a.reverseOrder i
  let found ← rd a.reverseH i
  let h ← arrH012 g hash s.1
  let z ← rd h found.toNat
  let x ← rd h (found.toNat + 1)
  let y ← rd h (found.toNat + 2)
  let fx ← rd s.2 x.toNat
  let fy ← rd s.2 y.toNat
  let fp ← wr s.2 z.toNat ((fingerprint hash).setWidth w ^^^ fx ^^^ fy)
  .ok (h, fp)

/-- `bfuse_from_impl!` (X:59-276). -/
def arrFromX (w : Nat) (prof : Profile) (segExp cap0 maxIter fuel : Nat) (fp0 : Nat → BitVec w)
    (keys : List U64) : Res (BinaryFuse w) := do
  if prof = .debug ∧ ¬ keys.Nodup then .panic
  else do
    let lay ← bfLayout keys.length segExp cap0
    let (ultimateSize, seed, a) ← arrLoopX prof lay keys fuel maxIter (splitmix64 1#64).1 (splitmix64 1#64).2
      (Arrays.init keys.length lay.arrayLen (blockBits lay.segmentCount))
    let (_, fp) ← foldRes (arrAssignStepX lay.geom a) (a.h012, (List.range lay.arrayLen).map fp0)
      (List.range ultimateSize).reverse
    .ok { seed := seed, geom := lay.geom, fingerprints := fp }

/-! ## Fuse and Xor filters -/

/-- A queue or stack in memory: the array and the number of live entries (bff-modp/src/prelude/fuse.rs:95-98, 115, 121;
xor.rs:78-89, 106, 114). -/
structure ArrStack where
  arr : List KeyIndex
  size : Nat

/-- `try_enqueue!` (bff-modp/src/prelude/mod.rs:140-147): two stores into `Q[q_size]`. -/
def arrTryEnqueue (H : List HSet) (q : ArrStack) (idx : Nat) : Res ArrStack := do
  let s ← rd H idx
  if s.count = 1#32 then do
    let e ← rd q.arr q.size
    let arr ← wr q.arr q.size { e with index := idx }
    let s ← rd H idx
    let e ← rd arr q.size
    let arr ← wr arr q.size { e with hash := s.mask }
    .ok { arr := arr, size := q.size + 1 }
  else .ok q

/-- Variables of the peeling loop (bff-modp/src/prelude/fuse.rs:115-145). -/
structure FArr where
  H : List HSet
  q : ArrStack
  stk : ArrStack

/-- Removing a peeled hash from one of its sets (bff-modp/src/prelude/fuse.rs:134-140). -/
def arrFuseRemoveAt (prof : Profile) (hash : U64) (s : FArr) (i : Nat) : Res FArr := do
  let H ← hRemove prof s.H i hash
  let q ← arrTryEnqueue H s.q i
  .ok { s with H := H, q := q }

/-- Body of the peeling loop after `q_size -= 1` (bff-modp/src/prelude/fuse.rs:124-140). -/
def arrFuseStep (prof : Profile) (sl : Nat) (s : FArr) : Res FArr := do
  let ki ← rd s.q.arr s.q.size
  let set ← rd s.H ki.index
  if set.count = 0#32 then .ok s
  else do
    let arr ← wr s.stk.arr s.stk.size ki
    foldRes (arrFuseRemoveAt prof ki.hash) { s with stk := { arr := arr, size := s.stk.size + 1 } }
      (fuseHset sl ki.hash)

/-- `while q_size > 0` (bff-modp/src/prelude/fuse.rs:122-141). -/
def arrFuseLoop (prof : Profile) (sl : Nat) : Nat → FArr → Res FArr
  | 0, s => if s.q.size = 0 then .ok s else .diverge
  | fuel + 1, s =>
    if s.q.size = 0 then .ok s
    else do
      let s ← arrFuseStep prof sl { s with q := { s.q with size := s.q.size - 1 } }
      arrFuseLoop prof sl fuel s

/-- The retry loop (bff-modp/src/prelude/fuse.rs:99-157): `H`, `Q` and `stack` are the arrays of all attempts; after a
failed one the sets are reset (fuse.rs:149-151), `Q` and `stack` are not. Returns `stack` and the seed. -/
def arrFuseRetry (prof : Profile) (sl cap : Nat) (keys : List U64) (fuel : Nat) :
    Nat → U64 → U64 → List HSet → List KeyIndex → List KeyIndex → Res (List KeyIndex × U64)
  | 0, _, _, _, _, _ => .err .filterFailed
  | n + 1, rng, seed, H, Q, stack => do
    let H ← foldRes (fun H k => fuseAddKey prof sl H (mix k seed)) H keys
    let q ← foldRes (arrTryEnqueue H) { arr := Q, size := 0 } (List.range cap)
    let s ← arrFuseLoop prof sl fuel { H := H, q := q, stk := { arr := stack, size := 0 } }
    if s.stk.size = keys.length then Res.ok (s.stk.arr, seed) else
      arrFuseRetry prof sl cap keys fuel n (splitmix64 rng).1 (splitmix64 rng).2 (s.H.map fun _ => HSet.zero)
        s.q.arr s.stk.arr

/-- `fuse_from_impl!` (bff-modp/src/prelude/fuse.rs:68-180): the assignment loop runs over `stack.iter().rev()`,
the whole array. -/
def arrFuseFrom (w : Nat) (prof : Profile) (c0 maxIter fuel : Nat) (fp0 : Nat → BitVec w)
    (keys : List U64) : Res (Fuse w) := do
  if prof = .debug ∧ ¬ keys.Nodup then .panic
  else do
    let cap := c0 / fuseSlots * fuseSlots
    let sl := cap / fuseSlots
    let (stack, seed) ← arrFuseRetry prof sl cap keys fuel maxIter (splitmix64 1#64).1 (splitmix64 1#64).2
      (List.replicate cap HSet.zero) (List.replicate cap { hash := 0#64, index := 0 })
      (List.replicate keys.length { hash := 0#64, index := 0 })
    let B ← foldRes (fuseAssignStep sl) ((List.range cap).map fp0) stack.reverse
    .ok { seed := seed, segmentLength := sl, fingerprints := B }

/-- Variables of the peeling loop (bff-modp/src/prelude/xor.rs:105-150): three blocks of sets, three queues. -/
structure XArr where
  H : List (List HSet)
  Q : List ArrStack
  stk : ArrStack

/-- `try_enqueue!(block H[b], set idx; queue block Q[b], ..)` (bff-modp/src/prelude/xor.rs:109-110, 138-139). -/
def arrXorEnqueue (b : Nat) (H : List (List HSet)) (Q : List ArrStack) (idx : Nat) : Res (List ArrStack) := do
  let Hb ← rd H b
  let Qb ← rd Q b
  let Qb ← arrTryEnqueue Hb Qb idx
  wr Q b Qb

/-- Removing a peeled hash from its set in block `j` (bff-modp/src/prelude/xor.rs:134-140). -/
def arrXorRemoveAt (prof : Profile) (bl : Nat) (hash : U64) (s : XArr) (j : Nat) : Res XArr := do
  let Hj ← rd s.H j
  let Hj ← hRemove prof Hj (xorH j bl hash) hash
  let H ← wr s.H j Hj
  let Q ← arrXorEnqueue j H s.Q (xorH j bl hash)
  .ok { s with H := H, Q := Q }

/-- Body of `dequeue!` for block `b` after `q_sizes[b] -= 1` (bff-modp/src/prelude/xor.rs:120-140). -/
def arrXorStep (prof : Profile) (bl b : Nat) (others : List Nat) (s : XArr) : Res XArr := do
  let Qb ← rd s.Q b
  let ki ← rd Qb.arr Qb.size
  let Hb ← rd s.H b
  let set ← rd Hb ki.index
  if set.count = 0#32 then .ok s
  else do
    let ki := { ki with index := ki.index + b * bl }
    let arr ← wr s.stk.arr s.stk.size ki
    foldRes (arrXorRemoveAt prof bl ki.hash) { s with stk := { arr := arr, size := s.stk.size + 1 } } others

/-- `dequeue!(block b, other blocks being others)` (bff-modp/src/prelude/xor.rs:116-147). -/
def arrXorDequeue (prof : Profile) (bl b : Nat) (others : List Nat) : Nat → XArr → Res XArr
  | 0, s => do
    let Qb ← rd s.Q b
    if Qb.size = 0 then .ok s else .diverge
  | fuel + 1, s => do
    let Qb ← rd s.Q b
    if Qb.size = 0 then .ok s
    else do
      let Q ← wr s.Q b { Qb with size := Qb.size - 1 }
      let s ← arrXorStep prof bl b others { s with Q := Q }
      arrXorDequeue prof bl b others fuel s

/-- `while q_sizes.iter().sum() > 0` (bff-modp/src/prelude/xor.rs:115-148). -/
def arrXorLoop (prof : Profile) (bl fuel : Nat) : Nat → XArr → Res XArr
  | 0, s => if (s.Q.map (·.size)).sum = 0 then .ok s else .diverge
  | n + 1, s =>
    if (s.Q.map (·.size)).sum = 0 then .ok s
    else do
      let s ← arrXorDequeue prof bl 0 [1, 2] fuel s
      let s ← arrXorDequeue prof bl 1 [0, 2] fuel s
      let s ← arrXorDequeue prof bl 2 [0, 1] fuel s
      arrXorLoop prof bl fuel n s

/-- The unbounded `loop` (bff-modp/src/prelude/xor.rs:93-161), observed for `n` attempts: after a failed one the sets
are reset (xor.rs:155-159), the queues and `stack` are not. -/
def arrXorRetry (prof : Profile) (bl : Nat) (keys : List U64) (fuel : Nat) :
    Nat → U64 → U64 → List (List HSet) → List (List KeyIndex) → List KeyIndex → Res (List KeyIndex × U64)
  | 0, _, _, _, _, _ => .diverge
  | n + 1, rng, seed, H, Q, stack => do
    let H ← foldRes (fun H k => xorAddKey prof bl H (mix k seed)) H keys
    let Q ← foldRes (fun Q b => foldRes (arrXorEnqueue b H) Q (List.range bl))
      (Q.map fun arr => { arr := arr, size := 0 }) [0, 1, 2]
    let s ← arrXorLoop prof bl fuel fuel { H := H, Q := Q, stk := { arr := stack, size := 0 } }
    if s.stk.size = keys.length then Res.ok (s.stk.arr, seed) else
      arrXorRetry prof bl keys fuel n (splitmix64 rng).1 (splitmix64 rng).2
        (s.H.map fun Hb => Hb.map fun _ => HSet.zero) (s.Q.map (·.arr)) s.stk.arr

/-- `xor_from_impl!` (bff-modp/src/prelude/xor.rs:51-181), observed for `n` attempts. -/
def arrXorFrom (w : Nat) (prof : Profile) (c0 fuel : Nat) (keys : List U64) (n : Nat) : Res (Xor w) := do
  if prof = .debug ∧ ¬ keys.Nodup then .panic
  else do
    let cap := (c0 + 32) / 3 * 3
    let bl := cap / 3
    let (stack, seed) ← arrXorRetry prof bl keys fuel n (splitmix64 1#64).1 (splitmix64 1#64).2
      (List.replicate 3 (List.replicate cap HSet.zero))
      (List.replicate 3 (List.replicate cap { hash := 0#64, index := 0 }))
      (List.replicate keys.length { hash := 0#64, index := 0 })
    let B ← foldRes (xorAssignStep bl) (List.replicate cap 0#w) stack.reverse
    .ok { seed := seed, blockLength := bl, fingerprints := B }

end Chalamet
