import Verif.Lemmas.Agree
import Verif.Lemmas.Codec
import Verif.Lemmas.Row
import Verif.Lemmas.Round
import Verif.Props.Filter

/-!
# C58: debug and release builds

Building and querying index shards, and the client side of keyword retrieval with filter parameters the library
computed, behave identically in both build profiles, on every input. Building keyword shards and filters differs only by additional panics of the
debug build: whenever the debug build does not panic the release build has the same outcome.
-/

namespace Chalamet

theorem Agree.eq_of_ok {α : Type} {x y : Res α} {a : α} (h : Agree x y) (hx : x = .ok a) : x = y := by
  rcases h with h | h
  · rw [h] at hx; cases hx
  · exact h

theorem Agree.imp {α : Type} {x y : Res α} (h : Agree x y) (hx : x ≠ .panic) : y = x := by
  rcases h with h | h
  · exact absurd h hx
  · exact h.symm

theorem bitsToBytesLe_prof (bits : List Bool) : bitsToBytesLe .debug bits = bitsToBytesLe .release bits := by
  obtain ⟨_, h, _⟩ := bitsToBytesLe_spec .debug bits
  exact (Agree.bitsToBytesLe bits).eq_of_ok h

theorem bitsToU32Le_prof (bits : List Bool) : bitsToU32Le .debug bits = bitsToU32Le .release bits := by
  unfold bitsToU32Le
  rw [bitsToBytesLe_prof]

theorem bytesFromU32Slice_prof (v : List U32) (b t : Nat) :
    bytesFromU32Slice .debug v b t = bytesFromU32Slice .release v b t := by
  unfold bytesFromU32Slice
  simp only [bitsToBytesLe_prof]

theorem base64FromU32Slice_prof (v : List U32) (b t : Nat) :
    base64FromU32Slice .debug v b t = base64FromU32Slice .release v b t := by
  unfold base64FromU32Slice
  rw [bytesFromU32Slice_prof]

theorem rowDigit_prof (bits : List Bool) (b i : Nat) :
    rowDigit .debug bits b i = rowDigit .release bits b i := by
  unfold rowDigit
  simp only [bitsToU32Le_prof]

theorem rowDigit_prof' : rowDigit .debug = rowDigit .release := by
  funext bits b i
  exact rowDigit_prof bits b i

theorem constructRow_prof (e : List Char) (b w : Nat) :
    constructRow .debug e b w = constructRow .release e b w := by
  unfold constructRow
  rw [rowDigit_prof']

theorem constructRows_prof (es : List (List Char)) (m t b : Nat) :
    constructRows .debug es m t b = constructRows .release es m t b := by
  unfold constructRows
  simp only [constructRow_prof]

theorem indexDatabase_prof (es : List (List Char)) (m t b : Nat) :
    IndexDatabase.new .debug es m t b = IndexDatabase.new .release es m t b := by
  unfold IndexDatabase.new
  rw [constructRows_prof]

/-- The scaling factor: in release builds an oversized exponent wraps to 0 and the division panics. -/
theorem getRoundingFactor_prof (b : Nat) : getRoundingFactor .debug b = getRoundingFactor .release b := by
  unfold getRoundingFactor getPlaintextSize
  by_cases h : b % 2 ^ 32 < 32
  · simp only [h, if_true]
  · simp only [h, if_false]
    rfl

theorem getRoundingFloor_prof (b : Nat) : getRoundingFloor .debug b = getRoundingFloor .release b := by
  unfold getRoundingFloor
  rw [getRoundingFactor_prof]

theorem roundCoord_prof (f l r : U32) :
    roundCoord .debug f (f / 2#32) l r = roundCoord .release f (f / 2#32) l r := by
  unfold roundCoord
  dsimp only
  split
  · rfl
  · rename_i hf
    split
    · rename_i hgt
      unfold addC
      dsimp only
      rw [if_pos]
      have h2 : 2 ≤ f.toNat := by
        by_contra hlt
        have h0 : f.toNat ≠ 0 := fun h => hf (BitVec.eq_of_toNat_eq (by simpa using h))
        have h1 : f.toNat = 1 := by omega
        have : f = 1#32 := BitVec.eq_of_toNat_eq (by simpa using h1)
        subst this
        simp at hgt
      have hq : ((l - r) / f).toNat ≤ (l - r).toNat / 2 := by
        rw [BitVec.toNat_udiv]
        exact Nat.div_le_div_left h2 (by omega)
      have := (l - r).isLt
      have h1 : (1#32).toNat = 1 := rfl
      omega
    · rfl

/-- Whenever the factor and the floor are available, so is the plaintext size, and it does not depend on the
profile. -/
theorem getPlaintextSize_prof {b : Nat} {f : U32} (h : getRoundingFactor .debug b = .ok f) :
    getPlaintextSize .debug b = getPlaintextSize .release b := by
  unfold getRoundingFactor at h
  obtain ⟨p, hp, _⟩ := Res.bind_eq_ok.1 h
  exact (Agree.getPlaintextSize b).eq_of_ok hp

theorem parseIndexRow_prof (qp : QueryParams Unit) (r : List U32) :
    qp.parseIndexRow .debug r = qp.parseIndexRow .release r := by
  unfold QueryParams.parseIndexRow
  rw [← getRoundingFactor_prof, ← getRoundingFloor_prof]
  cases hf : getRoundingFactor .debug qp.plaintextBits with
  | ok f =>
    have hfl : getRoundingFloor .debug qp.plaintextBits = .ok (f / 2#32) := by
      unfold getRoundingFloor; rw [hf]; rfl
    rw [hfl, getPlaintextSize_prof hf]
    simp only [Res.bind_ok, roundCoord_prof]
  | err e => rfl
  | panic => rfl
  | diverge => rfl

theorem parseKvRow_prof (qp : QueryParams FilterParams) (r : List U32) (k : Key) :
    qp.parseKvRow .debug r k = qp.parseKvRow .release r k := by
  unfold QueryParams.parseKvRow
  rw [← getRoundingFactor_prof, ← getRoundingFloor_prof]
  cases hf : getRoundingFactor .debug qp.plaintextBits with
  | ok f =>
    have hfl : getRoundingFloor .debug qp.plaintextBits = .ok (f / 2#32) := by
      unfold getRoundingFloor; rw [hf]; rfl
    rw [hfl, getPlaintextSize_prof hf]
    simp only [Res.bind_ok, roundCoord_prof]
  | err e => rfl
  | panic => rfl
  | diverge => rfl

/-- **C58 (index retrieval).** Building an index shard, reading it back, generating a query and parsing a
response (as a row, bytes or base64) have the same outcome in both profiles, for all arguments. -/
theorem C58_index_profiles_equal :
    (∀ prg seed strs n m t b, Shard.fromBase64Strings .debug prg seed strs n m t b =
      Shard.fromBase64Strings .release prg seed strs n m t b) ∧
    (∀ s : Shard, s.rowIter .debug = s.rowIter .release) ∧
    (∀ (qp : QueryParams Unit) i, qp.generateIndexQuery .debug i = qp.generateIndexQuery .release i) ∧
    (∀ (qp : QueryParams Unit) r, qp.parseIndexRow .debug r = qp.parseIndexRow .release r ∧
      qp.parseIndexBytes .debug r = qp.parseIndexBytes .release r ∧
      qp.parseIndexBase64 .debug r = qp.parseIndexBase64 .release r) := by
  refine ⟨?_, ?_, ?_, ?_⟩
  · intros
    unfold Shard.fromBase64Strings
    rw [indexDatabase_prof]
  · intro s
    unfold Shard.rowIter IndexDatabase.getDbEntry
    simp only [base64FromU32Slice_prof]
  · intro qp i
    unfold QueryParams.generateIndexQuery indexQueryBody
    rw [getRoundingFactor_prof]
  · intro qp r
    unfold QueryParams.parseIndexBytes QueryParams.parseIndexBase64
    simp only [parseIndexRow_prof, bytesFromU32Slice_prof, base64FromU32Slice_prof, and_self]

/-- **C58 (keyword client).** Deriving a key/value row from strings and parsing a response have the same outcome in
both profiles, for all arguments. Generating a keyword query has the same outcome with filter parameters
computed by the library for any number of keys; with other filter parameters (a hostile or broken server) it
has the same outcome whenever the debug build does not panic. -/
theorem C58_kv_client_profiles_equal :
    (∀ sha k v t b, KeyValue.fromBase64Strings .debug sha k v t b =
      KeyValue.fromBase64Strings .release sha k v t b) ∧
    (∀ s : KVShard, s.rowIter .debug = s.rowIter .release) ∧
    (∀ size segExp cap0 lay, bfLayout size segExp cap0 = .ok lay → ∀ (qp : QueryParams FilterParams) k,
      (∀ fp, qp.extraParams = some fp → fp.geom = lay.geom) →
      qp.generateKvQuery .debug k = qp.generateKvQuery .release k) ∧
    (∀ (qp : QueryParams FilterParams) k, (qp.generateKvQuery .debug k).2 ≠ .panic →
      qp.generateKvQuery .debug k = qp.generateKvQuery .release k) ∧
    (∀ (qp : QueryParams FilterParams) r k, qp.parseKvRow .debug r k = qp.parseKvRow .release r k ∧
      qp.parseKvBytes .debug r k = qp.parseKvBytes .release r k ∧
      qp.parseKvBase64 .debug r k = qp.parseKvBase64 .release r k) := by
  refine ⟨?_, ?_, ?_, ?_, ?_⟩
  · intros
    unfold KeyValue.fromBase64Strings kvConstructRow
    rw [rowDigit_prof']
  · intro s
    unfold KVShard.rowIter KVDatabase.getDbEntry
    simp only [base64FromU32Slice_prof]
  · intro size segExp cap0 lay hlay qp k hg
    obtain ⟨s, _, hw⟩ := bfLayout_wf hlay
    unfold QueryParams.generateKvQuery kvQueryBody
    rw [getRoundingFactor_prof]
    cases hx : qp.extraParams with
    | none => rfl
    | some fp =>
      simp only
      unfold FilterParams.getHashEvals BinaryFuseP32.hashEval
      simp only [hg fp hx, hashOfHashC_ok hw]
  · intro qp k hne
    unfold QueryParams.generateKvQuery at hne ⊢
    by_cases hu : qp.used = true
    · simp only [hu, if_true]
    · simp only [hu, if_false] at hne ⊢
      rw [Agree.imp (Agree.kvQueryBody qp k) hne]
  · intro qp r k
    unfold QueryParams.parseKvBytes QueryParams.parseKvBase64
    simp only [parseKvRow_prof, bytesFromU32Slice_prof, base64FromU32Slice_prof, and_self]

/-- **C58 (construction of keyword shards and filters).** Whenever the debug build does not panic, the release
build returns exactly the same shard or filter, or the same error. -/
theorem C58_debug_predicts_release :
    (∀ prg ps segExp cap0 fp0 fs kvs n m t b,
      KVShard.new .debug prg ps segExp cap0 fp0 fs kvs n m t b ≠ .panic →
      KVShard.new .release prg ps segExp cap0 fp0 fs kvs n m t b =
        KVShard.new .debug prg ps segExp cap0 fp0 fs kvs n m t b) ∧
    (∀ sha prg ps segExp cap0 fp0 fs keys values n m t b,
      KVShard.fromBase64Strings .debug sha prg ps segExp cap0 fp0 fs keys values n m t b ≠ .panic →
      KVShard.fromBase64Strings .release sha prg ps segExp cap0 fp0 fs keys values n m t b =
        KVShard.fromBase64Strings .debug sha prg ps segExp cap0 fp0 fs keys values n m t b) ∧
    (∀ segExp cap0 fp0 seed keys data label p,
      BinaryFuseP32.fromSlice .debug segExp cap0 fp0 seed keys data label p ≠ .panic →
      BinaryFuseP32.fromSlice .release segExp cap0 fp0 seed keys data label p =
        BinaryFuseP32.fromSlice .debug segExp cap0 fp0 seed keys data label p) ∧
    (∀ w segExp cap0 fp0 keys, BinaryFuse.tryFrom w .debug segExp cap0 fp0 keys ≠ .panic →
      BinaryFuse.tryFrom w .release segExp cap0 fp0 keys = BinaryFuse.tryFrom w .debug segExp cap0 fp0 keys) ∧
    (∀ w c0 fp0 keys, Fuse.tryFrom w .debug c0 fp0 keys ≠ .panic →
      Fuse.tryFrom w .release c0 fp0 keys = Fuse.tryFrom w .debug c0 fp0 keys) ∧
    (∀ w c0 keys n, Xor.fromWithin w .debug c0 keys n ≠ .panic →
      Xor.fromWithin w .release c0 keys n = Xor.fromWithin w .debug c0 keys n) := by
  refine ⟨?_, ?_, ?_, ?_, ?_, ?_⟩
  · intro prg ps segExp cap0 fp0 fs kvs n m t b
    exact Agree.imp (Agree.bind (Agree.kvDatabase_new _ _ _ _ _ _ _ _) fun _ => Agree.refl _)
  · intro sha prg ps segExp cap0 fp0 fs keys values n m t b
    exact Agree.imp
      (Agree.bind (Agree.kvDatabase_fromBase64Strings _ _ _ _ _ _ _ _ _ _) fun _ => Agree.refl _)
  · intros; exact Agree.imp (Agree.fromSlice _ _ _ _ _ _ _ _) ‹_›
  · intros; exact Agree.imp (Agree.binaryFuse _ _ _ _ _) ‹_›
  · intros; exact Agree.imp (Agree.fuse _ _ _ _) ‹_›
  · intros; exact Agree.imp (Agree.xor _ _ _ _) ‹_›

/-- **C58 (when the profiles differ).** For the keyword filter on well-formed input with no overloaded slot,
the debug build panics exactly when a key is repeated or the modulus is below 256; otherwise both builds have
the same outcome. -/
theorem C58_kv_filter_difference (segExp cap0 : Nat) (fp0 : Nat → U32) (seed : List U8)
    (keys : List Key) (data : List U32) (label ptxtMod : U64) (lay : Layout)
    (hlay : bfLayout keys.length segExp cap0 = .ok lay)
    (hseed : seed.length = 32) (hdata : data.length = keys.length)
    (hp0 : 0 < ptxtMod.toNat) (hp : ptxtMod.toNat < 2 ^ 32)
    (hload : ∀ s, slotLoad seed lay.geom keys s < 64) :
    BinaryFuseP32.fromSlice .release segExp cap0 fp0 seed keys data label ptxtMod ≠ .panic ∧
    ((¬ keys.Nodup ∨ ptxtMod.toNat < 256) →
      BinaryFuseP32.fromSlice .debug segExp cap0 fp0 seed keys data label ptxtMod = .panic) ∧
    (keys.Nodup → 256 ≤ ptxtMod.toNat →
      BinaryFuseP32.fromSlice .debug segExp cap0 fp0 seed keys data label ptxtMod =
      BinaryFuseP32.fromSlice .release segExp cap0 fp0 seed keys data label ptxtMod) := by
  refine ⟨?_, ?_, ?_⟩
  · rcases C29_total .release segExp cap0 fp0 seed keys data label ptxtMod lay hlay hseed hdata hp0 hp
      (by intro h; cases h) hload with ⟨f, h, _⟩ | h <;> rw [h] <;> simp
  · intro h
    unfold BinaryFuseP32.fromSlice bfusePFromImpl
    rw [if_neg (by omega), if_pos ⟨rfl, h⟩]
  · intro h1 h2
    rcases C29_total .debug segExp cap0 fp0 seed keys data label ptxtMod lay hlay hseed hdata hp0 hp
      (fun _ => ⟨h1, h2⟩) hload with ⟨f, h, _⟩ | h
    · exact (Agree.fromSlice _ _ _ _ _ _ _ _).eq_of_ok h
    · exact (Agree.imp (Agree.fromSlice _ _ _ _ _ _ _ _) (by rw [h]; simp)).symm

/-- A concrete difference: the modulus 16 is refused by an assertion of debug builds only. -/
example : BinaryFuseP32.fromSlice .debug 3 16 (fun _ => 0#32) exSeed exKeys [1#32, 2#32, 3#32] 7#64 16#64
      = .panic ∧
    BinaryFuseP32.fromSlice .release 3 16 (fun _ => 0#32) exSeed exKeys [1#32, 2#32, 3#32] 7#64 16#64
      ≠ .panic := by
  obtain ⟨lay, hlay⟩ : ∃ lay, bfLayout exKeys.length 3 16 = .ok lay := by
    have h : (bfLayout exKeys.length 3 16).isOk = true := by decide +kernel
    cases e : bfLayout exKeys.length 3 16 with
    | ok lay => exact ⟨lay, rfl⟩
    | _ => rw [e] at h; cases h
  have h := C58_kv_filter_difference 3 16 (fun _ => 0#32) exSeed exKeys [1#32, 2#32, 3#32] 7#64 16#64 lay
    hlay (by decide) rfl (by decide) (by decide) (slotLoad_lt_of_length _ _ _ (by decide))
  exact ⟨h.2.1 (.inr (by decide)), h.1⟩

/-- Non-vacuity of `C58_debug_predicts_release`: a debug construction that does not panic. -/
example : BinaryFuseP32.fromSlice .debug 3 16 (fun _ => 0#32) exSeed exKeys [1#32, 2#32, 3#32] 7#64 1024#64
      ≠ .panic := by
  obtain ⟨lay, hlay⟩ : ∃ lay, bfLayout exKeys.length 3 16 = .ok lay := by
    have h : (bfLayout exKeys.length 3 16).isOk = true := by decide +kernel
    cases e : bfLayout exKeys.length 3 16 with
    | ok lay => exact ⟨lay, rfl⟩
    | _ => rw [e] at h; cases h
  rcases C29_total .debug 3 16 (fun _ => 0#32) exSeed exKeys [1#32, 2#32, 3#32] 7#64 1024#64 lay
    hlay (by decide) rfl (by decide) (by decide) (fun _ => ⟨by decide, by decide⟩)
    (slotLoad_lt_of_length _ _ _ (by decide)) with ⟨f, h, _⟩ | h <;> rw [h] <;> simp

end Chalamet
