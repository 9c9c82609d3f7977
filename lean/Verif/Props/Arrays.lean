import Verif.Lemmas.ArraysP
import Verif.Lemmas.ArraysF
import Verif.Props.BFuse
import Verif.Props.Fuse
import Verif.Props.Xor

/-!
# C79: scratch memory

The constructions allocate their queues, stacks and tables once, overwrite them in place, pop by decrementing a size
variable and go on to the next attempt with whatever is left in memory. The theorems say that this program
(`Model/Arrays.lean`) has on every input the outcome of the list-level construction about which the other properties
are proved, that every `while` loop of it ends within an explicit number of iterations, and that what an earlier attempt
left in the queues and stacks cannot be observed.
-/

namespace Chalamet

/-- **C79.** `BinaryFuseP32`: the array program and the abstract construction have the same outcome — the same filter, the
same error, a panic or non-termination — on every input, in both build profiles, for every retry limit, as soon as the
peeling loop is observed for `arrayLen + 2 * size` iterations (more never make a difference). -/
theorem C79_keyed (prof : Profile) (segExp cap0 maxIter fuel : Nat) (fp0 : Nat → U32)
    (seed : List U8) (keys : List Key) (data : List U32) (label ptxtMod : U64) (hm : 0 < maxIter)
    (hf : ∀ lay, bfLayout keys.length segExp cap0 = .ok lay → lay.arrayLen + 2 * keys.length ≤ fuel) :
    arrFromP prof segExp cap0 maxIter fuel fp0 seed keys data label ptxtMod =
      bfusePFromImpl prof segExp cap0 maxIter fp0 seed keys data label ptxtMod :=
  arrFromP_eq prof segExp cap0 maxIter fuel fp0 seed keys data label ptxtMod hm hf

/-- **C79.** `BinaryFuse8/16/32`. -/
theorem C79_binary_fuse (w : Nat) (prof : Profile) (segExp cap0 maxIter fuel : Nat) (fp0 : Nat → BitVec w)
    (keys : List U64)
    (hf : ∀ lay, bfLayout keys.length segExp cap0 = .ok lay → lay.arrayLen + 2 * keys.length ≤ fuel) :
    arrFromX w prof segExp cap0 maxIter fuel fp0 keys = bfuseXFromImpl w prof segExp cap0 maxIter fp0 keys :=
  arrFromX_eq w prof segExp cap0 maxIter fuel fp0 keys hf

/-- **C79.** `Fuse8/16/32`: `c0 + 3 * size` iterations of the peeling loop suffice. -/
theorem C79_fuse (w : Nat) (prof : Profile) (c0 maxIter fuel : Nat) (fp0 : Nat → BitVec w) (keys : List U64)
    (hf : c0 + 3 * keys.length ≤ fuel) :
    arrFuseFrom w prof c0 maxIter fuel fp0 keys = fuseFromImpl w prof c0 maxIter fp0 keys :=
  arrFuseFrom_eq w prof c0 maxIter fuel fp0 keys hf

/-- **C79.** `Xor8/16/32`, for every number of attempts; the nested `dequeue!` loops are real `while` loops here. -/
theorem C79_xor (w : Nat) (prof : Profile) (c0 fuel : Nat) (keys : List U64) (n : Nat)
    (hf : 3 * (c0 + 32) + 2 * keys.length ≤ fuel) :
    arrXorFrom w prof c0 fuel keys n = Xor.fromWithin w prof c0 keys n :=
  arrXorFrom_eq w prof c0 fuel keys n hf

/-- **C79.** What earlier attempts left in the queue and on the stack of the Fuse construction cannot be observed: from
any two contents of these arrays the remaining attempts give the same peeling order and seed, or fail alike. -/
theorem C79_fuse_stale (prof : Profile) (sl cap fuel n : Nat) (keys : List U64) (rng seed : U64)
    (Q Q' stack stack' : List KeyIndex) (hQ : Q.length = cap) (hQ' : Q'.length = cap)
    (hS : stack.length = keys.length) (hS' : stack'.length = keys.length) (hf : cap + 3 * keys.length ≤ fuel) :
    arrFuseRetry prof sl cap keys fuel n rng seed (List.replicate cap HSet.zero) Q stack =
      arrFuseRetry prof sl cap keys fuel n rng seed (List.replicate cap HSet.zero) Q' stack' := by
  have h1 := arrFuseRetry_sim (prof := prof) (sl := sl) hf n rng seed hQ hS
  have h2 := arrFuseRetry_sim (prof := prof) (sl := sl) hf n rng seed hQ' hS'
  exact Sim.join (fun a b y ha hb => Prod.ext (List.reverse_injective (ha.1.trans hb.1.symm)) (ha.2.trans hb.2.symm)) h1 h2

/-- **C79.** The same for the three queues and the stack of the Xor construction. -/
theorem C79_xor_stale (prof : Profile) (bl cap fuel n : Nat) (keys : List U64) (rng seed : U64)
    (Q Q' : List (List KeyIndex)) (stack stack' : List KeyIndex) (hQ : Q.length = 3) (hQ' : Q'.length = 3)
    (hQc : ∀ q ∈ Q, q.length = cap) (hQc' : ∀ q ∈ Q', q.length = cap)
    (hS : stack.length = keys.length) (hS' : stack'.length = keys.length) (hf : 3 * cap + 2 * keys.length ≤ fuel) :
    arrXorRetry prof bl keys fuel n rng seed (List.replicate 3 (List.replicate cap HSet.zero)) Q stack =
      arrXorRetry prof bl keys fuel n rng seed (List.replicate 3 (List.replicate cap HSet.zero)) Q' stack' := by
  have h1 := arrXorRetry_sim (prof := prof) (bl := bl) hf n rng seed hQ hQc hS
  have h2 := arrXorRetry_sim (prof := prof) (bl := bl) hf n rng seed hQ' hQc' hS'
  exact Sim.join (fun a b y ha hb => Prod.ext (List.reverse_injective (ha.1.trans hb.1.symm)) (ha.2.trans hb.2.symm)) h1 h2

/-- Two memories of the binary fuse constructions that agree on the order array and the counting tables; the queue, the
stack of pivots, the bucket pointers and the index scratch may hold anything (the sixth scratch index is never written). -/
structure SameTables (size capacity bb : Nat) (a a' : Arrays) : Prop where
  rel : ARel capacity size bb a
  rel' : ARel capacity size bb a'
  order : a.reverseOrder = a'.reverseOrder
  count : a.t2count = a'.t2count
  hash : a.t2hash = a'.t2hash

/-- **C79.** The attempts of the binary fuse construction on two such memories end alike, with the same seed, the same
number of peeled keys and the same peeling order. -/
theorem C79_binary_fuse_stale (prof : Profile) (lay : Layout) (keys : List U64) (fuel n : Nat) (rng seed : U64)
    (a a' : Arrays) (hcap : lay.arrayLen ≤ 2 ^ 32) (hf : lay.arrayLen + 2 * keys.length ≤ fuel)
    (h : SameTables keys.length lay.arrayLen (blockBits lay.segmentCount) a a') :
    Sim (fun x y => x.1 = y.1 ∧ x.2.1 = y.2.1 ∧
        x.2.2.reverseOrder.take x.1 = y.2.2.reverseOrder.take y.1 ∧ x.2.2.reverseH.take x.1 = y.2.2.reverseH.take y.1)
      (arrLoopX prof lay keys fuel n rng seed a) (arrLoopX prof lay keys fuel n rng seed a') := by
  have h1 := arrLoopX_sim (prof := prof) hcap hf n rng seed h.rel
  have h2 := arrLoopX_sim (prof := prof) hcap hf n rng seed h.rel'
  have e : a.toB = a'.toB := by
    unfold Arrays.toB
    rw [h.order, h.count, h.hash]
  rw [e] at h1
  refine Sim.join_rel ?_ h1 h2
  rintro ⟨m, sd, b⟩ ⟨m', sd', b'⟩ ⟨stk, sd''⟩ ⟨-, e1, t1, u1⟩ ⟨-, e2, t2, u2⟩
  simp only at e1 e2 t1 t2 u1 u2 ⊢
  have hm : m = m' := by rw [t1.len, t2.len]
  refine ⟨hm, by rw [e1, e2], ?_, ?_⟩
  · have := t1.eq.trans t2.eq.symm
    simpa using this
  · have := u1.eq.trans u2.eq.symm
    exact List.map_injective_iff.2 (fun x y h => BitVec.eq_of_toNat_eq h) this

/-- **C79.** End to end: a filter built by the array program answers `true` for every key it was built from. -/
theorem C79_no_false_negatives (w : Nat) (prof : Profile) (c0 fuel : Nat) (fp0 : Nat → BitVec w) (keys : List U64)
    (hl : keys.length < 2 ^ 32) (k : U64) (hk : k ∈ keys) :
    (c0 + 3 * keys.length ≤ fuel → ∀ f, arrFuseFrom w prof c0 1000 fuel fp0 keys = .ok f → f.contains k = .ok true) ∧
    (3 * (c0 + 32) + 2 * keys.length ≤ fuel → ∀ n f, arrXorFrom w prof c0 fuel keys n = .ok f →
      f.contains k = .ok true) := by
  constructor
  · intro hf f h
    rw [C79_fuse w prof c0 1000 fuel fp0 keys hf] at h
    exact C43_no_false_negatives w prof c0 fp0 keys hl f h k hk
  · intro hf n f h
    rw [C79_xor w prof c0 fuel keys n hf] at h
    exact C41_no_false_negatives w prof c0 keys hl n f h k hk

/-- Non-vacuity of C79: the array programs run, and build filters. -/
example : (arrFromP .debug 3 16 5 1000 (fun i => BitVec.ofNat 32 (i * i + 12345)) exSeed exKeys
      [1000#32, 2#32, 0xffffffff#32] 7#64 1024#64 >>= fun f => f.retrieve [5#64, 6#64, 7#64, 8#64] 7#64) = .ok 2#32 ∧
    (arrFromX 8 .debug 3 20 1000 1000 (fun i => BitVec.ofNat 8 (i * 37 + 5))
      [1#64, 2#64, 3#64, 0xffffffffffffffff#64] >>= fun f => f.contains 3#64) = .ok true ∧
    (arrFuseFrom 8 .debug 102 1000 1000 (fun i => BitVec.ofNat 8 (i * 37)) [1#64, 2#64, 3#64, 4#64] >>=
      fun f => f.contains 3#64) = .ok true ∧
    (arrXorFrom 8 .debug 4 1000 [1#64, 2#64, 3#64, 4#64] 3 >>= fun f => f.contains 3#64) = .ok true := by
  decide +kernel

/-- Non-vacuity of C79: the bound on iterations is met by a concrete layout. -/
example : ∀ lay, bfLayout 3 3 16 = .ok lay → lay.arrayLen + 2 * 3 ≤ 1000 := by
  intro lay hl
  have h2 : (match bfLayout 3 3 16 with | .ok l => decide (l.arrayLen + 2 * 3 ≤ 1000) | _ => false) = true := by
    decide +kernel
  rw [hl] at h2
  simpa using h2

/-- Non-vacuity of `C79_binary_fuse_stale`: fresh memory, and memory with left-overs. -/
example (size capacity bb : Nat) : SameTables size capacity bb (Arrays.init size capacity bb)
    { Arrays.init size capacity bb with
      alone := List.replicate capacity 77#32, reverseH := List.replicate size 2#8, startPos := List.replicate (2 ^ bb) 9 } :=
  have h := Arrays.init_rel size capacity bb
  ⟨h, ⟨by simp, h.t1, h.t2, by simp, h.ro, by simp, h.h⟩, rfl, rfl, rfl⟩

end Chalamet
