import Verif.Lemmas.Hang
import Verif.Props.Peeling
import Verif.Props.Sizes

/-!
# C80: an overloaded slot

The slot counters of the binary fuse constructions are bytes that count keys in steps of 4. C57 and C62 assume that no
slot is shared by 64 or more keys. Here is what happens with 64 keys that do share a slot.
-/

namespace Chalamet

/-- The first seed of `BinaryFuse8/16/32::try_from`: the same in every run of the program. -/
def firstSeed : U64 := (splitmix64 1#64).2

/-- **C80 (BinaryFuse8/16/32).** `try_from` on 64 different keys that share a slot (and none of which hashes to 0) never
returns in a release build, and panics in a debug build: it neither succeeds nor reports an error. -/
theorem C80_binary_fuse (w segExp cap0 : Nat) (fp0 : Nat → BitVec w) (keys : List U64) (lay : Layout) (s : Nat)
    (hlay : bfLayout keys.length segExp cap0 = .ok lay) (hl : keys.length = 64) (hnd : keys.Nodup)
    (hnz : ∀ k ∈ keys, mix k firstSeed ≠ 0#64) (hs : ∀ k ∈ keys, touchesX lay.geom firstSeed k s) :
    BinaryFuse.tryFrom w .release segExp cap0 fp0 keys = .diverge ∧
    BinaryFuse.tryFrom w .debug segExp cap0 fp0 keys = .panic := by
  obtain ⟨e, _, hg⟩ := bfLayout_wf hlay
  have hnd' : (keys.map fun k => mix k firstSeed).Nodup := hnd.map (C32_mix_bijective firstSeed).1
  obtain ⟨st, h1, h2, h3⟩ := attempt_wraps hg (hashes := keys.map fun k => mix k firstSeed) (by simpa using hl) hnd'
    (s := s) (by
      intro h hh
      obtain ⟨k, hk, rfl⟩ := List.mem_map.1 hh
      have := hs k hk
      unfold touchesX at this
      simpa [on, slotN] using this)
  have h4 := attempt_full (prof := .release) (lay := lay) (size := 64)
    (hashes := keys.map fun k => mix k firstSeed) (st := st) (by intro e; simp at e; simp [e] at hl) h2 (by
      intro v hv
      rcases h3 v hv with h | rfl
      · obtain ⟨k, hk, rfl⟩ := List.mem_map.1 h
        exact hnz k hk
      · decide)
  have h5 : attempt .debug lay 64 (keys.map fun k => mix k firstSeed) (BState.init 64 lay.arrayLen) = .panic := by
    rcases Agree.attempt lay 64 (keys.map fun k => mix k firstSeed) (BState.init 64 lay.arrayLen) with h | h
    · exact h
    · rw [h1] at h
      rcases attempt_debug hg (by simpa using hl) h with ⟨_, e, _⟩ | e <;> cases e
  constructor
  · unfold BinaryFuse.tryFrom bfuseXFromImpl
    rw [if_neg (by simp), hlay, Res.bind_ok]
    have e : bfxLoop .release lay keys 1000 (splitmix64 1#64).1 (splitmix64 1#64).2
        (BState.init keys.length lay.arrayLen) = .diverge := by
      rw [bfxLoop, hl]
      have h1' := h1
      unfold firstSeed at h1'
      rw [h1', Res.bind_ok]
      simp only
      rw [bfxLoop, hl]
      unfold firstSeed at h4
      rw [h4]
      rfl
    rw [e]
    rfl
  · unfold BinaryFuse.tryFrom bfuseXFromImpl
    rw [if_neg (by simp [hnd]), hlay, Res.bind_ok]
    have e : bfxLoop .debug lay keys 1000 (splitmix64 1#64).1 (splitmix64 1#64).2
        (BState.init keys.length lay.arrayLen) = .panic := by
      rw [bfxLoop, hl]
      unfold firstSeed at h5
      rw [h5]
      rfl
    rw [e]
    rfl

/-- **C80 (BinaryFuseP32).** The same for `from_slice`, for whatever seed, label and modulus. -/
theorem C80_keyed (segExp cap0 : Nat) (fp0 : Nat → U32) (seed : List U8) (keys : List Key) (data : List U32)
    (label ptxtMod : U64) (lay : Layout) (s : Nat)
    (hlay : bfLayout keys.length segExp cap0 = .ok lay) (hl : keys.length = 64) (hseed : seed.length = 32)
    (hdata : data.length = keys.length) (hdist : (keys.map fun k => mix256 k seed).Nodup)
    (hnz : ∀ k ∈ keys, mix256 k seed ≠ .ok 0#64) (hs : ∀ k ∈ keys, touchesP seed lay.geom k s) :
    BinaryFuseP32.fromSlice .release segExp cap0 fp0 seed keys data label ptxtMod = .diverge ∧
    BinaryFuseP32.fromSlice .debug segExp cap0 fp0 seed keys data label ptxtMod = .panic := by
  obtain ⟨e, _, hg⟩ := bfLayout_wf hlay
  choose gh hgh using mix256_total hseed
  have hh : mapRes (fun k => mix256 k seed) keys = .ok (keys.map gh) := mapRes_ok_of_forall fun k _ => hgh k
  have hnd' : (keys.map gh).Nodup := by
    have e : (keys.map fun k => mix256 k seed) = (keys.map gh).map Res.ok := by
      rw [List.map_map]
      exact List.map_congr_left fun k _ => hgh k
    rw [e] at hdist
    exact hdist.of_map
  obtain ⟨st, h1, h2, h3⟩ := attempt_wraps hg (hashes := keys.map gh) (by simpa using hl) hnd'
    (s := s) (by
      intro h hm
      obtain ⟨k, hk, rfl⟩ := List.mem_map.1 hm
      exact (touchesP_iff (hgh k) s).2 (hs k hk))
  have h4 := attempt_full (prof := .release) (lay := lay) (size := 64)
    (hashes := keys.map gh) (st := st) (by intro e; simp at e; simp [e] at hl) h2 (by
      intro v hv
      rcases h3 v hv with h | rfl
      · obtain ⟨k, hk, rfl⟩ := List.mem_map.1 h
        exact fun e => hnz k hk (by rw [hgh k, e])
      · decide)
  have h5 : attempt .debug lay 64 (keys.map gh) (BState.init 64 lay.arrayLen) = .panic := by
    rcases Agree.attempt lay 64 (keys.map gh) (BState.init 64 lay.arrayLen) with h | h
    · exact h
    · rw [h1] at h
      rcases attempt_debug hg (by simpa using hl) h with ⟨_, e, _⟩ | e <;> cases e
  constructor
  · unfold BinaryFuseP32.fromSlice
    rw [if_neg (by omega), bfusePFromImpl_eq, if_neg (by simp), hlay, Res.bind_ok, hh, Res.bind_ok, if_neg (by omega)]
    have e : bfpLoop .release lay keys.length (keys.map gh) bfpMaxIter (BState.init keys.length lay.arrayLen) =
        .diverge := by
      rw [hl]
      unfold bfpMaxIter
      rw [bfpLoop, h1, Res.bind_ok]
      simp only
      rw [bfpLoop, h4]
      rfl
    rw [e]
    rfl
  · unfold BinaryFuseP32.fromSlice
    rw [if_neg (by omega), bfusePFromImpl_eq]
    split
    · rfl
    · rw [hlay, Res.bind_ok, hh, Res.bind_ok, if_neg (by omega)]
      have e : bfpLoop .debug lay keys.length (keys.map gh) bfpMaxIter (BState.init keys.length lay.arrayLen) =
          .panic := by
        rw [hl]
        unfold bfpMaxIter
        rw [bfpLoop, h5]
        rfl
      rw [e]
      rfl

/-- **C80 (attack).** For every size computation that gives a layout, there are 64 different keys — the same for every
fingerprint width and every initial content — on which `try_from` never returns (release) or panics (debug). -/
theorem C80_attack (segExp cap0 : Nat) (lay : Layout) (hlay : bfLayout 64 segExp cap0 = .ok lay) :
    ∃ keys : List U64, keys.length = 64 ∧ keys.Nodup ∧ ∀ (w : Nat) (fp0 : Nat → BitVec w),
      BinaryFuse.tryFrom w .release segExp cap0 fp0 keys = .diverge ∧
      BinaryFuse.tryFrom w .debug segExp cap0 fp0 keys = .panic := by
  obtain ⟨e, he, hg⟩ := bfLayout_wf hlay
  choose inv hinv using (C32_mix_bijective firstSeed).2
  simp only at hinv
  have hinj : Function.Injective inv := fun a b h => by rw [← hinv a, ← hinv b, h]
  refine ⟨((List.range 64).map fun i => BitVec.ofNat 64 (i + 1)).map inv, by simp, ?_, fun w fp0 => ?_⟩
  · apply List.Nodup.map hinj
    decide +kernel
  · apply C80_binary_fuse w segExp cap0 fp0 _ lay 0 (by simpa using hlay) (by simp)
    · apply List.Nodup.map hinj
      decide +kernel
    · intro k hk
      obtain ⟨h, hh, rfl⟩ := List.mem_map.1 hk
      obtain ⟨i, hi, rfl⟩ := List.mem_map.1 hh
      rw [hinv]
      intro e
      have := congrArg BitVec.toNat e
      have hi' := List.mem_range.1 hi
      rw [BitVec.toNat_ofNat, Nat.mod_eq_of_lt (by omega)] at this
      simp at this
    · intro k hk
      obtain ⟨h, hh, rfl⟩ := List.mem_map.1 hk
      obtain ⟨i, hi, rfl⟩ := List.mem_map.1 hh
      have hi' := List.mem_range.1 hi
      left
      rw [hinv]
      unfold hashOfHash
      have : (BitVec.ofNat 64 (i + 1) : U64).toNat * lay.geom.segmentCountLength.toNat / 2 ^ 64 = 0 := by
        rw [BitVec.toNat_ofNat, Nat.mod_eq_of_lt (by omega)]
        apply Nat.div_eq_of_lt
        have := lay.geom.segmentCountLength.isLt
        calc (i + 1) * lay.geom.segmentCountLength.toNat ≤ 64 * 2 ^ 32 := Nat.mul_le_mul (by omega) (by omega)
          _ < 2 ^ 64 := by norm_num
      simp only [this]
      rfl

/-- **C80 (attack, real sizes).** In particular with the sizes that the code computes in floating point. -/
theorem C80_attack_sizes (log : ℚ → ℚ) (hlog : LogAccurate log) :
    ∃ keys : List U64, keys.length = 64 ∧ keys.Nodup ∧ ∀ (w : Nat) (fp0 : Nat → BitVec w),
      BinaryFuse.tryFrom w .release (bfSegExp log 64) (bfCap0 log 64) fp0 keys = .diverge ∧
      BinaryFuse.tryFrom w .debug (bfSegExp log 64) (bfCap0 log 64) fp0 keys = .panic := by
  obtain ⟨lay, _, h, _⟩ := C76_layout log hlog 64 (by norm_num) (by norm_num)
  exact C80_attack _ _ lay h

/-- **C80 (key-value server).** Building a key-value database from 64 pairs whose keys share a filter slot never returns in
a release build and panics in a debug build. -/
theorem C80_kv_database (segExp cap0 : Nat) (fp0 : Nat → Nat → U32) (seed : List U8) (kvs : List KeyValue)
    (m T b : Nat) (lay : Layout) (s : Nat)
    (hlay : bfLayout kvs.length segExp cap0 = .ok lay) (hl : kvs.length = 64) (hseed : seed.length = 32)
    (hb : b ≤ 31) (hval : ∀ kv ∈ kvs, 0 < kv.value.length)
    (hdist : (kvs.map fun kv => mix256 kv.key seed).Nodup)
    (hnz : ∀ kv ∈ kvs, mix256 kv.key seed ≠ .ok 0#64) (hs : ∀ kv ∈ kvs, touchesP seed lay.geom kv.key s) :
    KVDatabase.new .release segExp cap0 fp0 seed kvs m T b = .diverge ∧
    KVDatabase.new .debug segExp cap0 fp0 seed kvs m T b = .panic := by
  obtain ⟨kv0, rest, hk⟩ := List.exists_cons_of_ne_nil (l := kvs) (by intro e; simp [e] at hl)
  have hrd : rd kvs 0 = .ok kv0 := by rw [hk]; rfl
  obtain ⟨w, hw⟩ : ∃ w, kv0.value.length = w + 1 :=
    ⟨kv0.value.length - 1, by have := hval kv0 (by rw [hk]; simp); omega⟩
  have hp : ∀ prof, pow2U64 prof b = .ok (BitVec.ofNat 64 (2 ^ b)) := by
    intro prof
    unfold pow2U64
    have e : b % 2 ^ 32 = b := Nat.mod_eq_of_lt (by omega)
    simp only [e]
    rw [if_pos (by omega)]
  have hdata : mapRes (fun kv : KeyValue => rd kv.value 0) kvs = .ok (kvs.map fun kv => kv.value.getD 0 0#32) :=
    mapRes_ok_of_forall fun kv hkv => by
      have := hval kv hkv
      rw [rd_ok this, getD_lt this]
  obtain ⟨h1, h2⟩ := C80_keyed segExp cap0 (fp0 0) seed (kvs.map (·.key)) (kvs.map fun kv => kv.value.getD 0 0#32)
    (BitVec.ofNat 64 0) (BitVec.ofNat 64 (2 ^ b)) lay s (by simpa using hlay) (by simpa using hl) hseed (by simp)
    (by rw [List.map_map]; exact hdist)
    (by intro k hk; obtain ⟨kv, h, rfl⟩ := List.mem_map.1 hk; exact hnz kv h)
    (by intro k hk; obtain ⟨kv, h, rfl⟩ := List.mem_map.1 hk; exact hs kv h)
  have hcol : ∀ prof, columnFilter prof segExp cap0 fp0 seed kvs b 0 =
      (BinaryFuseP32.fromSlice prof segExp cap0 (fp0 0) seed (kvs.map (·.key))
        (kvs.map fun kv => kv.value.getD 0 0#32) (BitVec.ofNat 64 0) (BitVec.ofNat 64 (2 ^ b))).unwrap := by
    intro prof
    unfold columnFilter
    rw [hdata, Res.bind_ok, hp, Res.bind_ok]
  constructor
  · unfold KVDatabase.new storageFiltersFromKvs
    rw [hrd, Res.bind_ok, hw, List.range_succ_eq_map, mapRes_cons, hcol, h1]
    rfl
  · unfold KVDatabase.new storageFiltersFromKvs
    rw [hrd, Res.bind_ok, hw, List.range_succ_eq_map, mapRes_cons, hcol, h2]
    rfl

/-- 64 keys that share a slot under `exSeed` in the layout the code computes for 64 keys. -/
def hangKeys : List Key := [
  57, 84, 85, 88, 98, 106, 198, 249, 266, 285, 315, 434, 464, 469, 514, 522, 544, 559, 636, 647, 687, 919, 937,
  1031, 1049, 1212, 1291, 1294, 1414, 1426, 1445, 1596, 1639, 1667, 1684, 1715, 1806, 1807, 1815, 1960, 2011,
  2032, 2049, 2291, 2309, 2314, 2435, 2531, 2658, 2902, 2932, 3068, 3202, 3402, 3413, 3425, 3426, 3591, 3601,
  3958, 4129, 4141, 4211, 4247].map
    fun i => [BitVec.ofNat 64 i, 0#64, 0#64, 0#64]

/-- Non-vacuity of C80: all hypotheses of `C80_keyed` hold of these keys (32 cells per segment and capacity 109 are the
values computed for 64 keys). -/
example : (match bfLayout hangKeys.length 5 109 with
      | .ok lay => decide (hangKeys.length = 64 ∧ exSeed.length = 32 ∧ lay.geom.segmentLength = 32#32 ∧
          (hangKeys.map fun k => mix256 k exSeed).Nodup ∧ (∀ k ∈ hangKeys, mix256 k exSeed ≠ .ok 0#64) ∧
          ∀ k ∈ hangKeys, (match BinaryFuseP32.hashEval .release k exSeed lay.geom with
            | .ok l => decide (0 ∈ l) | _ => false) = true)
      | _ => false) = true := by
  decide +kernel

/-- Non-vacuity of C80: a layout as in `C80_attack`. -/
example : (bfLayout 64 5 109).isOk = true := by decide +kernel

end Chalamet
