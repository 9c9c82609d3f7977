import Verif.Lemmas.Filter
import Mathlib.Data.Nat.ModEq

/-!
# The key-value filter: C28, C29, C30, C34, C35, C36, C38
-/

namespace Chalamet

/-! ## C28: stored data are recovered -/

/-- **C28.** If `from_vec` returns a filter for a plaintext modulus that divides `2^32` (and is smaller),
then retrieving any input key yields the datum of the last input key with the same hash, modulo the
modulus. Quantified over all keys, data, seeds, labels, unused-slot contents `fp0` and floating-point
size values `segExp`, `cap0`. In release builds no slot may be hit by 64 or more keys (the `u8` counters
wrap); in debug builds that case panics, so no hypothesis is needed. -/
theorem C28_retrieve (prof : Profile) (segExp cap0 : Nat) (fp0 : Nat → U32) (seed : List U8)
    (keys : List Key) (data : List U32) (label ptxtMod : U64) (f : BinaryFuseP32)
    (hf : BinaryFuseP32.fromVec prof segExp cap0 fp0 seed keys data label ptxtMod = .ok f)
    (hdvd : ptxtMod.toNat ∣ 2 ^ 32) (hlt : ptxtMod.toNat < 2 ^ 32)
    (hload : prof = .debug ∨ ∀ s, slotLoad seed f.geom keys s < 64)
    (i j : Nat) (hi : i < keys.length) (hj : j < keys.length) (hjd : j < data.length)
    (hij : mix256 keys[j] seed = mix256 keys[i] seed)
    (hlast : ∀ k (hk : k < keys.length), j < k → mix256 keys[k] seed ≠ mix256 keys[i] seed) :
    ∃ x : U32, f.retrieve keys[i] label = .ok x ∧ x.toNat = data[j].toNat % ptxtMod.toNat := by
  obtain ⟨hashes, n, h1, h2, h3, h4, h5, h6, h7⟩ :=
    bfp_sat hf (by norm_num [bfpMaxIter]) hdvd hlt hload
  have hl := mapRes_length h1
  have hget : ∀ k (hk : k < keys.length), mix256 keys[k] seed = .ok (hashes[k]'(by omega)) := by
    intro k hk
    have := mapRes_getElem? h1 k
    rw [List.getElem?_eq_getElem hk, List.getElem?_eq_getElem (by omega)] at this
    simpa using this
  have hi' : i < hashes.length := by omega
  have hj' : j < hashes.length := by omega
  have hd : hmGet hashes data hashes[i] = some data[j] := by
    apply hmGet_last hj' hjd
    · have := hget j hj
      rw [hij, hget i hi] at this
      exact (Res.ok.inj this).symm
    · intro k hk hlt e
      have hk' : k < keys.length := by omega
      apply hlast k hk' hlt
      rw [hget k hk', hget i hi, e]
  have h0 : 0 < ptxtMod.toNat := Nat.pos_of_dvd_of_pos hdvd (by norm_num)
  have hpne := setWidth_ne_zero h0 hlt
  obtain ⟨d, hd', hs⟩ := h7 hashes[i] (List.getElem_mem _)
  rw [hd] at hd'
  cases hd'
  rw [retrieve_eq (hash := hashes[i]) (n := n) (by rw [h2]; exact hget i hi) (h6 _) h5
    (by rw [h3]; exact hpne), h3]
  refine ⟨_, rfl, ?_⟩
  rw [hs, BitVec.toNat_umod, setWidth_toNat_lt hlt]

/-- **C28.** `from_slice`, with pairwise different hashes: every key returns its own datum. -/
theorem C28_retrieve_distinct (prof : Profile) (segExp cap0 : Nat) (fp0 : Nat → U32) (seed : List U8)
    (keys : List Key) (data : List U32) (label ptxtMod : U64) (f : BinaryFuseP32)
    (hf : BinaryFuseP32.fromSlice prof segExp cap0 fp0 seed keys data label ptxtMod = .ok f)
    (hdvd : ptxtMod.toNat ∣ 2 ^ 32) (hlt : ptxtMod.toNat < 2 ^ 32)
    (hload : prof = .debug ∨ ∀ s, slotLoad seed f.geom keys s < 64)
    (hdist : ∀ i j (hi : i < keys.length) (hj : j < keys.length),
      mix256 keys[i] seed = mix256 keys[j] seed → i = j) :
    data.length = keys.length ∧
    ∀ i (hi : i < keys.length) (hd : i < data.length),
      ∃ x : U32, f.retrieve keys[i] label = .ok x ∧ x.toNat = data[i].toNat % ptxtMod.toNat := by
  unfold BinaryFuseP32.fromSlice at hf
  split at hf
  · cases hf
  · rename_i hl
    push Not at hl
    refine ⟨hl, fun i hi hd => ?_⟩
    exact C28_retrieve prof segExp cap0 fp0 seed keys data label ptxtMod f hf hdvd hlt hload i i hi hi hd
      rfl (fun k hk hlt e => by have := hdist k i hk hi e; omega)

/-- The 32-byte seed used in the examples. -/
def exSeed : List U8 := (List.range 32).map fun i => BitVec.ofNat 8 (7 * i + 3)

/-- Three keys used in the examples. -/
def exKeys : List Key :=
  [[1#64, 2#64, 3#64, 4#64], [5#64, 6#64, 7#64, 8#64], [9#64, 10#64, 11#64, 0xffffffffffffffff#64]]

/-- Non-vacuity of C28: a construction that succeeds for three keys, with noise in the unused slots, and
what it returns. -/
example : ∃ f, BinaryFuseP32.fromSlice .debug 3 16 (fun i => BitVec.ofNat 32 (i * i + 12345)) exSeed
      exKeys [1000#32, 2#32, 0xffffffff#32] 7#64 1024#64 = .ok f ∧
    f.retrieve [1#64, 2#64, 3#64, 4#64] 7#64 = .ok 1000#32 ∧
    f.retrieve [5#64, 6#64, 7#64, 8#64] 7#64 = .ok 2#32 ∧
    f.retrieve [9#64, 10#64, 11#64, 0xffffffffffffffff#64] 7#64 = .ok 1023#32 := by
  have h : ((BinaryFuseP32.fromSlice .debug 3 16 (fun i => BitVec.ofNat 32 (i * i + 12345)) exSeed
      exKeys [1000#32, 2#32, 0xffffffff#32] 7#64 1024#64).bind fun f =>
      .ok (f.retrieve [1#64, 2#64, 3#64, 4#64] 7#64, f.retrieve [5#64, 6#64, 7#64, 8#64] 7#64,
        f.retrieve [9#64, 10#64, 11#64, 0xffffffffffffffff#64] 7#64)) =
      .ok (.ok 1000#32, .ok 2#32, .ok 1023#32) := by decide +kernel
  obtain ⟨f, hf, h⟩ := Res.bind_eq_ok.1 h
  simp only [Res.ok.injEq, Prod.mk.injEq] at h
  exact ⟨f, hf, h⟩

/-! ## C29: construction is total -/

theorem mix256_total {seed : List U8} (hs : seed.length = 32) (k : Key) :
    ∃ h, mix256 k seed = .ok h := by
  unfold mix256 seedWords
  simp [hs]

theorem hashes_total {seed : List U8} (hs : seed.length = 32) (keys : List Key) :
    ∃ hashes, mapRes (fun k => mix256 k seed) keys = .ok hashes := by
  choose g hg using mix256_total hs
  exact ⟨_, mapRes_ok_of_forall (g := g) fun k _ => hg k⟩

/-- **C29.** On well-formed input (as many data as keys, a 32-byte seed, a non-zero modulus below
`2^32`; in debug builds also distinct keys and a modulus of at least 256) whose size computation does
not overflow `u32` and that loads no slot with 64 or more keys, construction neither panics nor loops
forever: it returns a filter or the construction error. -/
theorem C29_total (prof : Profile) (segExp cap0 : Nat) (fp0 : Nat → U32) (seed : List U8)
    (keys : List Key) (data : List U32) (label ptxtMod : U64) (lay : Layout)
    (hlay : bfLayout keys.length segExp cap0 = .ok lay)
    (hseed : seed.length = 32) (hdata : data.length = keys.length)
    (hp0 : 0 < ptxtMod.toNat) (hp : ptxtMod.toNat < 2 ^ 32)
    (hdebug : prof = .debug → keys.Nodup ∧ 256 ≤ ptxtMod.toNat)
    (hload : ∀ s, slotLoad seed lay.geom keys s < 64) :
    (∃ f, BinaryFuseP32.fromSlice prof segExp cap0 fp0 seed keys data label ptxtMod = .ok f ∧
      f.seed = seed ∧ f.geom = lay.geom ∧ f.fingerprints.length = lay.arrayLen ∧
      f.ptxtMod = ptxtMod) ∨
    BinaryFuseP32.fromSlice prof segExp cap0 fp0 seed keys data label ptxtMod = .err .filterFailed := by
  obtain ⟨s, _, hg⟩ := bfLayout_wf hlay
  obtain ⟨hashes, hh⟩ := hashes_total hseed keys
  have hl := mapRes_length hh
  have hF := (fits_iff (g := lay.geom) hh).2 hload
  unfold BinaryFuseP32.fromSlice
  rw [if_neg (by omega), bfusePFromImpl_eq, if_neg (by
    rintro ⟨h1, h2⟩
    obtain ⟨a, b⟩ := hdebug h1
    rcases h2 with h2 | h2
    · exact h2 a
    · omega), hlay]
  simp only [Res.bind_ok, hh]
  rw [if_neg (by omega)]
  rcases bfpLoop_spec (prof := prof) hg hl (Or.inr hF) with ⟨stk, hS, hb⟩ | hb | ⟨_, hn, _⟩
  · left
    obtain ⟨fp, e1, e2⟩ := assignP_total (data := data) (label := label) (ptxtMod := ptxtMod)
      (fun h => slotsOk hg h) hS (by omega) (setWidth_ne_zero hp0 hp)
      ((List.range lay.arrayLen).map fp0) (by simp)
    rw [hb _ (by norm_num [bfpMaxIter]), Res.bind_ok, e1, Res.bind_ok]
    exact ⟨_, rfl, rfl, rfl, e2, rfl⟩
  · right
    rw [hb]
    rfl
  · exact absurd hF hn

/-- The load condition holds for any 63 or fewer keys. -/
theorem slotLoad_lt_of_length (seed : List U8) (g : Geom) (keys : List Key) (h : keys.length < 64)
    (s : Nat) : slotLoad seed g keys s < 64 :=
  lt_of_le_of_lt (List.length_filter_le _ _) h

/-- Both outcomes of C29 occur. -/
example : (∃ f, BinaryFuseP32.fromSlice .release 3 16 (fun _ => 0#32) exSeed exKeys
      [1#32, 2#32, 3#32] 0#64 256#64 = .ok f) := by
  have h : (BinaryFuseP32.fromSlice .release 3 16 (fun _ => 0#32) exSeed exKeys
      [1#32, 2#32, 3#32] 0#64 256#64).isOk = true := by decide +kernel
  revert h
  cases BinaryFuseP32.fromSlice .release 3 16 (fun _ => 0#32) exSeed exKeys
      [1#32, 2#32, 3#32] 0#64 256#64 with
  | ok f => exact fun _ => ⟨f, rfl⟩
  | _ => intro h; cases h

/-! ## C30: retrying cannot help -/

/-- **C30.** For every positive retry limits `n` and `m` the outcome of the construction is the same: the
seed is never changed, so the later attempts repeat the first. -/
theorem C30_retries_useless (prof : Profile) (segExp cap0 n m : Nat) (fp0 : Nat → U32)
    (seed : List U8) (keys : List Key) (data : List U32) (label ptxtMod : U64)
    (hload : prof = .debug ∨ ∀ lay, bfLayout keys.length segExp cap0 = .ok lay →
      ∀ s, slotLoad seed lay.geom keys s < 64)
    (hn : 0 < n) (hm : 0 < m) :
    bfusePFromImpl prof segExp cap0 n fp0 seed keys data label ptxtMod =
    bfusePFromImpl prof segExp cap0 m fp0 seed keys data label ptxtMod := by
  rw [bfusePFromImpl_eq, bfusePFromImpl_eq]
  split
  · rfl
  · cases hlay : bfLayout keys.length segExp cap0 with
    | ok lay =>
      cases hh : mapRes (fun k => mix256 k seed) keys with
      | ok hashes =>
        obtain ⟨s, _, hg⟩ := bfLayout_wf hlay
        have hl := mapRes_length hh
        have hload' : prof = .debug ∨ Fits lay.geom hashes :=
          hload.imp_right fun h => (fits_iff hh).2 (h lay hlay)
        have e : bfpLoop prof lay keys.length hashes n (BState.init keys.length lay.arrayLen) =
            bfpLoop prof lay keys.length hashes m (BState.init keys.length lay.arrayLen) := by
          rcases bfpLoop_spec (prof := prof) hg hl hload' with ⟨_, _, hb⟩ | hb | ⟨_, _, _, _, hb⟩
          · rw [hb _ hn, hb _ hm]
          · rw [hb, hb]
          · rw [hb _ hn, hb _ hm]
        simp only [Res.bind_ok, e, hn, hm, and_true]
      | _ => rfl
    | _ => rfl

/-- A failing instance for C30: two hashes that share all slots with a third cannot be peeled. With one
segment length 1 all keys collide in all slots, so construction fails for every limit. -/
example : ∀ n, 0 < n → bfusePFromImpl .release 0 3 n (fun _ => 0#32) exSeed exKeys
    [1#32, 2#32, 3#32] 0#64 256#64 = .err .filterFailed := by
  intro n hn
  have h1 : bfusePFromImpl .release 0 3 1 (fun _ => 0#32) exSeed exKeys
    [1#32, 2#32, 3#32] 0#64 256#64 = .err .filterFailed := by decide +kernel
  rw [← h1]
  apply C30_retries_useless _ _ _ _ _ _ _ _ _ _ _ (Or.inr _) hn (by norm_num)
  intro lay _ s
  exact slotLoad_lt_of_length _ _ _ (by decide) s

/-! ## C34: colliding keys -/

/-- **C34.** Two input keys are distinguishable by their stored data only if their hashes differ: whenever
construction succeeds and two keys have the same hash, both return the same value, whatever their data;
by `C28_retrieve` it is the datum given last. -/
theorem C34_collision_shares_datum (f : BinaryFuseP32) (k₁ k₂ : Key) (label : U64)
    (h : mix256 k₁ f.seed = mix256 k₂ f.seed) : f.retrieve k₁ label = f.retrieve k₂ label := by
  unfold BinaryFuseP32.retrieve
  rw [h]

/-- **C34, which datum.** After a successful construction, all the keys with the same hash as `keys[i]`, member or not,
return the datum given with the last of them, modulo `ptxtMod`. -/
theorem C34_last_datum (prof : Profile) (segExp cap0 : Nat) (fp0 : Nat → U32) (seed : List U8)
    (keys : List Key) (data : List U32) (label ptxtMod : U64) (f : BinaryFuseP32)
    (hf : BinaryFuseP32.fromVec prof segExp cap0 fp0 seed keys data label ptxtMod = .ok f)
    (hdvd : ptxtMod.toNat ∣ 2 ^ 32) (hlt : ptxtMod.toNat < 2 ^ 32)
    (hload : prof = .debug ∨ ∀ s, slotLoad seed f.geom keys s < 64)
    (j : Nat) (hj : j < keys.length) (hjd : j < data.length)
    (hlast : ∀ k (hk : k < keys.length), j < k → mix256 keys[k] seed ≠ mix256 keys[j] seed)
    (key : Key) (hkey : mix256 key seed = mix256 keys[j] seed) :
    ∃ x : U32, f.retrieve key label = .ok x ∧ x.toNat = data[j].toNat % ptxtMod.toNat := by
  obtain ⟨x, h1, h2⟩ := C28_retrieve prof segExp cap0 fp0 seed keys data label ptxtMod f hf hdvd hlt hload
    j j hj hj hjd rfl hlast
  obtain ⟨_, _, _, hs, _⟩ := bfp_sat hf (by norm_num [bfpMaxIter]) hdvd hlt hload
  exact ⟨x, by rw [C34_collision_shares_datum f key keys[j] label (by rw [hs]; exact hkey), h1], h2⟩

/-- The naive claim (each of several distinct keys returns its own datum) is refuted: construction
succeeds (in debug builds, so the distinctness check passes too), and the first key returns the second
key's datum. -/
theorem C34_refuted : ∃ (k₁ k₂ : Key) (f : BinaryFuseP32), k₁ ≠ k₂ ∧
    BinaryFuseP32.fromSlice .debug 2 12 (fun _ => 0#32) exSeed [k₁, k₂] [10#32, 20#32] 0#64 256#64
      = .ok f ∧
    f.retrieve k₁ 0#64 = .ok 20#32 := by
  have h : ((BinaryFuseP32.fromSlice .debug 2 12 (fun _ => 0#32) exSeed
      [[1#64, 2#64, 3#64, 4#64], [2#64, 1#64, 3#64, 4#64]] [10#32, 20#32] 0#64 256#64).bind fun f =>
      .ok (f.retrieve [1#64, 2#64, 3#64, 4#64] 0#64)) = .ok (.ok 20#32) := by decide +kernel
  obtain ⟨f, hf, h⟩ := Res.bind_eq_ok.1 h
  simp only [Res.ok.injEq] at h
  exact ⟨_, _, f, by decide, hf, h⟩

/-- C34: the construction above meets the hypotheses, with `j = 1` and the first key. -/
example : ∃ f, BinaryFuseP32.fromVec .debug 2 12 (fun _ => 0#32) exSeed
      [[1#64, 2#64, 3#64, 4#64], [2#64, 1#64, 3#64, 4#64]] [10#32, 20#32] 0#64 256#64 = .ok f ∧
    mix256 [1#64, 2#64, 3#64, 4#64] exSeed = mix256 [2#64, 1#64, 3#64, 4#64] exSeed := by
  have h : ((BinaryFuseP32.fromVec .debug 2 12 (fun _ => 0#32) exSeed
      [[1#64, 2#64, 3#64, 4#64], [2#64, 1#64, 3#64, 4#64]] [10#32, 20#32] 0#64 256#64).bind fun f =>
      .ok (f.retrieve [1#64, 2#64, 3#64, 4#64] 0#64)) = .ok (.ok 20#32) := by decide +kernel
  obtain ⟨f, hf, _⟩ := Res.bind_eq_ok.1 h
  exact ⟨f, hf, by decide +kernel⟩

/-! ## C35: which plaintext moduli work -/

/-- Retrieval is correct for the modulus `p`: for all inputs with pairwise different hashes for which the
debug construction succeeds, every key returns its datum modulo `p`. -/
def ModulusCorrect (p : U64) : Prop :=
  ∀ (segExp cap0 : Nat) (fp0 : Nat → U32) (seed : List U8) (keys : List Key) (data : List U32)
    (label : U64) (f : BinaryFuseP32),
    BinaryFuseP32.fromSlice .debug segExp cap0 fp0 seed keys data label p = .ok f →
    (∀ i j (hi : i < keys.length) (hj : j < keys.length),
      mix256 keys[i] seed = mix256 keys[j] seed → i = j) →
    ∀ i (hi : i < keys.length) (hd : i < data.length),
      ∃ x : U32, f.retrieve keys[i] label = .ok x ∧ x.toNat = data[i].toNat % p.toNat

/-- One key, its hash under `exSeed`. -/
def exKey : Key := [1#64, 2#64, 3#64, 4#64]

theorem exKey_run : ∃ h lay, mix256 exKey exSeed = .ok h ∧ bfLayout 1 2 0 = .ok lay ∧
    bfpLoop .debug lay 1 [h] bfpMaxIter (BState.init 1 lay.arrayLen) = .ok [(h, 2)] := by
  have h : ((mix256 exKey exSeed).bind fun h => (bfLayout 1 2 0).bind fun lay =>
      (bfpLoop .debug lay 1 [h] bfpMaxIter (BState.init 1 lay.arrayLen)).bind fun stk =>
        .ok (decide (stk = [(h, 2)]))) = .ok true := by decide +kernel
  obtain ⟨a, ha, h⟩ := Res.bind_eq_ok.1 h
  obtain ⟨lay, hlay, h⟩ := Res.bind_eq_ok.1 h
  obtain ⟨stk, hstk, h⟩ := Res.bind_eq_ok.1 h
  simp only [Res.ok.injEq, decide_eq_true_eq] at h
  subst h
  exact ⟨a, lay, ha, hlay, hstk⟩

/-- **C35.** Among the moduli accepted by the debug assertion and representable in `u32`, retrieval is
correct exactly for the divisors of `2^32`. -/
theorem C35_modulus_characterisation (p : U64) (h256 : 256 ≤ p.toNat) (hlt : p.toNat < 2 ^ 32) :
    ModulusCorrect p ↔ p.toNat ∣ 2 ^ 32 := by
  constructor
  · intro hc
    by_contra hnd
    obtain ⟨h, lay, hh, hlay, hrun⟩ := exKey_run
    obtain ⟨s, _, hg⟩ := bfLayout_wf hlay
    have ho := slotsOk hg h
    -- a label whose mask is zero
    obtain ⟨z, hz⟩ := mix64_surj 0#64
    have hmix : mix h (z - h) = 0#64 := by
      unfold mix
      rw [show h + (z - h) = z by rw [BitVec.add_comm, BitVec.sub_add_cancel]]
      exact hz
    have hp0 : 0 < p.toNat := by omega
    have hpne := setWidth_ne_zero hp0 hlt
    -- the first slot of the key contains 1, all others 0
    let fp0 : Nat → U32 := fun i => if i = slotN lay.geom h 0 then 1#32 else 0#32
    have hfp0 : ∀ i < lay.arrayLen, ((List.range lay.arrayLen).map fp0).getD i 0#32 = fp0 i := by
      intro i hi
      rw [getD_lt (by simpa using hi)]
      simp
    have hstep := assignStepP_eq (g := lay.geom) (n := lay.arrayLen) (hashes := [h])
      (data := [0#32]) (label := z - h) (ptxtMod := p) (fp := (List.range lay.arrayLen).map fp0)
      (h := h) (f := 2) (d := 0#32) ho (by omega) (by simp [hmGet]) hpne (by simp)
    have hf01 : otherSlots 2 = (0, 1) := rfl
    rw [hf01] at hstep
    simp only at hstep
    rw [hfp0 _ ho.l0, hfp0 _ ho.l1, hmix] at hstep
    have e0 : fp0 (slotN lay.geom h 0) = 1#32 := by simp [fp0]
    have e1 : fp0 (slotN lay.geom h 1) = 0#32 := by simp [fp0, ho.d01.symm]
    rw [e0, e1] at hstep
    generalize hv : ((0#32 % (p.setWidth 32 : U32) - 1#32 - 0#32) % (p.setWidth 32 : U32) -
      ((0#64 % p).setWidth 32 : U32)) % (p.setWidth 32 : U32) = v at hstep
    let fps := ((List.range lay.arrayLen).map fp0).set (slotN lay.geom h 2) v
    have hbuild : BinaryFuseP32.fromSlice .debug 2 0 fp0 exSeed [exKey] [0#32] (z - h) p =
        .ok { seed := exSeed, geom := lay.geom, fingerprints := fps, ptxtMod := p } := by
      unfold BinaryFuseP32.fromSlice
      rw [if_neg (by simp), bfusePFromImpl_eq, if_neg (by
        rintro ⟨_, h2⟩
        rcases h2 with h2 | h2
        · exact h2 (by simp)
        · omega)]
      simp only [List.length_singleton, hlay, Res.bind_ok, mapRes_cons, mapRes_nil, hh]
      rw [if_neg (by omega), hrun, Res.bind_ok, foldRes_cons, hstep]
      rfl
    obtain ⟨x, hx, hxe⟩ := hc 2 0 fp0 exSeed [exKey] [0#32] (z - h) _ hbuild
      (by intro i j hi hj _; simp at hi hj; omega) 0 (by simp) (by simp)
    rw [retrieve_eq (hash := h) (n := lay.arrayLen) hh ho (by simp [fps]) hpne] at hx
    have hsum := solve_slots (f := 2) ho (by omega) (fp := (List.range lay.arrayLen).map fp0)
      (by simp) v
    simp only [hf01] at hsum
    rw [hfp0 _ ho.l0, hfp0 _ ho.l1, e0, e1] at hsum
    simp only [hmix] at hx
    have hx' := Res.ok.inj hx
    simp only [fps] at hx'
    rw [hsum] at hx'
    rw [← hx'] at hxe
    simp only [List.getElem_cons_zero] at hxe
    -- arithmetic
    have hvn : v.toNat = (2 ^ 32 - 1) % p.toNat := by
      rw [← hv]
      have z1 : (0#32 % (p.setWidth 32 : U32)) = 0#32 := by
        apply BitVec.eq_of_toNat_eq; simp
      have z2 : ((0#64 % p).setWidth 32 : U32) = 0#32 := by
        apply BitVec.eq_of_toNat_eq; simp
      rw [z1, z2, BitVec.sub_zero, BitVec.sub_zero, BitVec.toNat_umod, BitVec.toNat_umod,
        setWidth_toNat_lt hlt, Nat.mod_mod]
      rfl
    have z2 : ((0#64 % p).setWidth 32 : U32) = 0#32 := by
      apply BitVec.eq_of_toNat_eq; simp
    rw [z2, BitVec.add_zero, BitVec.add_zero, BitVec.toNat_umod, BitVec.toNat_add, hvn,
      setWidth_toNat_lt hlt] at hxe
    have hr := Nat.mod_lt (2 ^ 32 - 1) hp0
    have e1' : (1#32 : U32).toNat = 1 := rfl
    rw [e1', Nat.mod_eq_of_lt (a := (2 ^ 32 - 1) % p.toNat + 1) (by omega)] at hxe
    simp only [BitVec.toNat_ofNat, Nat.zero_mod] at hxe
    apply hnd
    apply Nat.dvd_of_mod_eq_zero
    rw [show (2 ^ 32 : Nat) = (2 ^ 32 - 1) + 1 by norm_num, ← Nat.mod_add_mod]
    exact hxe
  · intro hdvd segExp cap0 fp0 seed keys data label f hf hdist
    exact (C28_retrieve_distinct .debug segExp cap0 fp0 seed keys data label p f hf hdvd hlt
      (Or.inl rfl) hdist).2

/-- The naive claim (every modulus of at least 256 works) is refuted at 257. -/
theorem C35_refuted : ¬ ∀ p : U64, 256 ≤ p.toNat → ModulusCorrect p := by
  intro h
  have := (C35_modulus_characterisation 257#64 (by decide) (by decide)).1 (h _ (by decide))
  revert this
  decide

/-! ## C36: the client's unmasking agrees with `retrieve` -/

theorem mask_mod {b : Nat} (hb : b ≤ 31) (x : U64) (p : U64) (hp : p.toNat = 2 ^ b) :
    (((x % p).setWidth 32 : U32)).toNat % 2 ^ b = (x.setWidth 32 : U32).toNat % 2 ^ b := by
  have hd : 2 ^ b ∣ 2 ^ 32 := Nat.pow_dvd_pow 2 (by omega)
  rw [BitVec.toNat_setWidth, BitVec.toNat_setWidth, BitVec.toNat_umod, hp,
    Nat.mod_mod_of_dvd _ hd, Nat.mod_mod_of_dvd _ hd, Nat.mod_mod]

theorem sum4_mod {p q : Nat} (hd : p ∣ q) (a c e m : Nat) :
    ((((a + c) % q + e) % q + m) % q) % p = (a % p + c % p + e % p + m) % p := by
  have hm : ∀ x, Nat.ModEq p (x % q) x := fun x => Nat.mod_mod_of_dvd _ hd
  have hr : ∀ x, Nat.ModEq p x (x % p) := fun x => (Nat.mod_mod _ _).symm
  exact (hm _).trans (((hm _).trans (((hm _).trans ((hr _).add (hr _))).add (hr _))).add_right _)

theorem unmask_arith {b : Nat} (hb : b ≤ 31) {p : U64} (hp : p.toNat = 2 ^ b)
    (hpn : (p.setWidth 32 : U32).toNat = 2 ^ b) (a c e : U32) (x : U64) :
    ((a + c + e + (x % p).setWidth 32) % (p.setWidth 32 : U32)).toNat =
    ((a % (p.setWidth 32 : U32)).toNat + (c % (p.setWidth 32 : U32)).toNat +
      (e % (p.setWidth 32 : U32)).toNat + x.toNat) % 2 ^ b := by
  have hd : 2 ^ b ∣ 2 ^ 32 := Nat.pow_dvd_pow 2 (by omega)
  have hx : x.toNat % 2 ^ b = ((x % p).setWidth 32 : U32).toNat % 2 ^ b := by
    rw [mask_mod hb x p hp, BitVec.toNat_setWidth, Nat.mod_mod_of_dvd _ hd]
  rw [Nat.add_mod _ x.toNat, hx, ← Nat.add_mod]
  generalize (x % p).setWidth 32 = m
  generalize (p.setWidth 32 : U32) = q at hpn
  rw [BitVec.toNat_umod, BitVec.toNat_umod, BitVec.toNat_umod, BitVec.toNat_umod, hpn,
    BitVec.toNat_add, BitVec.toNat_add, BitVec.toNat_add]
  exact sum4_mod hd _ _ _ _

/-- **C36.** For a constructed filter with modulus `2^b` and every key (stored or not) and label: the column published
by `get_fingerprints_mod` has an entry at each of the three slots given by `hash_eval`, and adding these
three entries to the 32 low bits of `get_key_fingerprint`, modulo `2^b`, gives what `retrieve` returns. -/
theorem C36_unmask (prof : Profile) (segExp cap0 : Nat) (fp0 : Nat → U32) (seed : List U8)
    (keys : List Key) (data : List U32) (label₀ ptxtMod : U64) (f : BinaryFuseP32)
    (hf : BinaryFuseP32.fromVec prof segExp cap0 fp0 seed keys data label₀ ptxtMod = .ok f)
    (b : Nat) (hb : b ≤ 31) (hpb : ptxtMod.toNat = 2 ^ b) (hseed' : seed.length = 32)
    (key : Key) (label : U64) :
    ∃ (col : List U32) (i j l : Nat) (x y z : U32) (fpr : U64) (r : U32),
      f.getFingerprintsMod = .ok col ∧ col.length = f.fingerprints.length ∧
      BinaryFuseP32.hashEval prof key f.seed f.geom = .ok [i, j, l] ∧
      col[i]? = some x ∧ col[j]? = some y ∧ col[l]? = some z ∧
      BinaryFuseP32.getKeyFingerprint key f.seed label = .ok fpr ∧
      f.retrieve key label = .ok r ∧
      r.toNat = (x.toNat + y.toNat + z.toNat + fpr.toNat) % 2 ^ b := by
  obtain ⟨lay, s, _, _, _, hg, hs, hpm⟩ := bfp_wf hf
  have hp : f.ptxtMod.toNat = 2 ^ b := by rw [hpm, hpb]
  have hseed : f.seed.length = 32 := by rw [hs]; exact hseed'
  obtain ⟨h, hh⟩ := mix256_total hseed key
  have ho := slotsOk hg h
  have hpow : 2 ^ b ≤ 2 ^ 31 := Nat.pow_le_pow_right (by omega) hb
  have hlt : f.ptxtMod.toNat < 2 ^ 32 := by rw [hp]; omega
  have hpn : (f.ptxtMod.setWidth 32 : U32).toNat = 2 ^ b := by rw [setWidth_toNat_lt hlt, hp]
  have hpne : (f.ptxtMod.setWidth 32 : U32) ≠ 0#32 :=
    setWidth_ne_zero (by rw [hp]; exact Nat.two_pow_pos b) hlt
  have hcol : f.getFingerprintsMod =
      .ok (f.fingerprints.map fun x => x % (f.ptxtMod.setWidth 32 : U32)) := by
    unfold BinaryFuseP32.getFingerprintsMod
    apply mapRes_ok_of_forall
    intro x _
    simp [hpne]
  have hget : ∀ i, i < f.fingerprints.length →
      (f.fingerprints.map fun x => x % (f.ptxtMod.setWidth 32 : U32))[i]? =
        some (f.fingerprints.getD i 0#32 % (f.ptxtMod.setWidth 32 : U32)) := by
    intro i hi
    rw [List.getElem?_map, List.getElem?_eq_getElem hi, getD_lt hi]
    rfl
  refine ⟨_, slotN f.geom h 0, slotN f.geom h 1, slotN f.geom h 2, _, _, _, mix h label, _, hcol, by simp,
    ?_, hget _ ho.l0, hget _ ho.l1, hget _ ho.l2, ?_, retrieve_eq hh ho rfl hpne, ?_⟩
  · simp [BinaryFuseP32.hashEval, hh, slotN, hashOfHashC_ok hg]
  · simp [BinaryFuseP32.getKeyFingerprint, hh]
  · have := unmask_arith hb hp hpn (f.fingerprints.getD (slotN f.geom h 0) 0#32)
      (f.fingerprints.getD (slotN f.geom h 1) 0#32) (f.fingerprints.getD (slotN f.geom h 2) 0#32)
      (mix h label)
    exact this

/-! ## C38: success does not depend on the data column -/

/-- The outcome of a call without its value. -/
def Res.shape {α : Type} : Res α → Res Unit
  | .ok _ => .ok ()
  | .err e => .err e
  | .panic => .panic
  | .diverge => .diverge

/-- The array part of the assignment step. -/
def assignCore (val : U32 → U32 → U32) (h012 : List Nat) (found : Nat) (fp : List U32) :
    Res (List U32) :=
  rd h012 (found + 1) >>= fun a => rd h012 (found + 2) >>= fun b => rd h012 found >>= fun c =>
  rd fp a >>= fun fa => rd fp b >>= fun fb => wr fp c (val fa fb)

theorem assignStepP_core (g : Geom) (hashes : List U64) (data : List U32) (label ptxtMod : U64)
    (fp : List U32) (hash : U64) (found : Nat) :
    assignStepP g hashes data label ptxtMod fp (hash, found) =
    match hmGet hashes data hash with
    | none => .panic
    | some d =>
      if (ptxtMod.setWidth 32 : U32) = 0#32 ∨ ptxtMod = 0#64 then .panic
      else assignCore
        (fun fa fb => ((d % ptxtMod.setWidth 32 - fa - fb) % ptxtMod.setWidth 32 -
          (mix hash label % ptxtMod).setWidth 32) % ptxtMod.setWidth 32)
        [(hashOfHash hash g).1.toNat, (hashOfHash hash g).2.1.toNat, (hashOfHash hash g).2.2.toNat,
          (hashOfHash hash g).1.toNat, (hashOfHash hash g).2.1.toNat, 0] found fp := by
  unfold assignStepP assignCore
  rfl

theorem assignCore_shape (v v' : U32 → U32 → U32) (h012 : List Nat) (found : Nat)
    (fp fp' : List U32) (hlen : fp.length = fp'.length) :
    (∃ a b, assignCore v h012 found fp = .ok a ∧ assignCore v' h012 found fp' = .ok b ∧
      a.length = b.length) ∨
    (assignCore v h012 found fp = .panic ∧ assignCore v' h012 found fp' = .panic) := by
  have rd3 : ∀ i, (∃ x, rd h012 i = .ok x) ∨ rd h012 i = .panic := by
    intro i
    rcases Nat.lt_or_ge i h012.length with h | h
    · exact Or.inl ⟨_, rd_ok h⟩
    · exact Or.inr (rd_panic h)
  have rdl : ∀ i, (∃ x y, rd fp i = .ok x ∧ rd fp' i = .ok y) ∨
      (rd fp i = .panic ∧ rd fp' i = .panic) := by
    intro i
    rcases Nat.lt_or_ge i fp.length with h | h
    · exact Or.inl ⟨_, _, rd_ok h, rd_ok (by omega)⟩
    · exact Or.inr ⟨rd_panic h, rd_panic (by omega)⟩
  unfold assignCore
  rcases rd3 (found + 1) with ⟨a, ha⟩ | ha
  · rcases rd3 (found + 2) with ⟨b, hb⟩ | hb
    · rcases rd3 found with ⟨c, hc⟩ | hc
      · simp only [ha, hb, hc, Res.bind_ok]
        rcases rdl a with ⟨x, y, hx, hy⟩ | ⟨hx, hy⟩
        · rcases rdl b with ⟨x', y', hx', hy'⟩ | ⟨hx', hy'⟩
          · simp only [hx, hy, hx', hy', Res.bind_ok]
            rcases Nat.lt_or_ge c fp.length with h | h
            · rw [wr_ok h, wr_ok (by omega)]
              left
              exact ⟨_, _, rfl, rfl, by simpa using hlen⟩
            · right
              unfold wr
              rw [if_neg (by omega), if_neg (by omega)]
              exact ⟨rfl, rfl⟩
          · right; simp only [hx, hy, hx', hy', Res.bind_ok, Res.bind_panic, and_self]
        · right; simp only [hx, hy, Res.bind_panic, and_self]
      · right; simp only [ha, hb, hc, Res.bind_ok, Res.bind_panic, and_self]
    · right; simp only [ha, hb, Res.bind_ok, Res.bind_panic, and_self]
  · right; simp only [ha, Res.bind_panic, and_self]

theorem bfp_shape (prof : Profile) (segExp cap0 N : Nat) (fp0 fp0' : Nat → U32)
    (seed : List U8) (keys : List Key) (data data' : List U32) (label label' ptxtMod : U64)
    (hd : data.length = keys.length) (hd' : data'.length = keys.length) :
    (bfusePFromImpl prof segExp cap0 N fp0 seed keys data label ptxtMod).shape =
    (bfusePFromImpl prof segExp cap0 N fp0' seed keys data' label' ptxtMod).shape := by
  have key : ∀ (g : Geom) (hashes : List U64), hashes.length = keys.length →
      ∀ (stk : List (U64 × Nat)) (fp fp' : List U32), fp.length = fp'.length →
      (foldRes (assignStepP g hashes data label ptxtMod) fp stk).shape =
      (foldRes (assignStepP g hashes data' label' ptxtMod) fp' stk).shape := by
    intro g hashes hl stk
    have hstep : ∀ (fp fp' : List U32) (e : U64 × Nat), fp.length = fp'.length →
        (∃ a b, assignStepP g hashes data label ptxtMod fp e = .ok a ∧
          assignStepP g hashes data' label' ptxtMod fp' e = .ok b ∧ a.length = b.length) ∨
        (assignStepP g hashes data label ptxtMod fp e = .panic ∧
          assignStepP g hashes data' label' ptxtMod fp' e = .panic) := by
      rintro fp fp' ⟨hash, found⟩ hlen
      rw [assignStepP_core, assignStepP_core]
      by_cases hm : hash ∈ hashes
      · obtain ⟨d, h1⟩ := hmGet_isSome (data := data) hm (by omega)
        obtain ⟨d', h2⟩ := hmGet_isSome (data := data') hm (by omega)
        simp only [h1, h2]
        split
        · right; exact ⟨rfl, rfl⟩
        · exact assignCore_shape _ _ _ _ _ _ hlen
      · have hn : ∀ dat, hmGet hashes dat hash = none := by
          intro dat
          unfold hmGet
          rw [List.lookup_eq_none_iff]
          rintro ⟨p1, p2⟩ hp
          rw [List.mem_reverse] at hp
          have := (List.of_mem_zip hp).1
          rw [bne_iff_ne]
          intro he
          exact hm (he ▸ this)
        right
        simp only [hn, and_self]
    induction stk with
    | nil => intro fp fp' _; rfl
    | cons e rest ih =>
      intro fp fp' hlen
      rw [foldRes_cons, foldRes_cons]
      rcases hstep fp fp' e hlen with ⟨a, b, ha, hb, hl'⟩ | ⟨ha, hb⟩
      · simp only [ha, hb, Res.bind_ok]
        exact ih a b hl'
      · simp only [ha, hb, Res.bind_panic, Res.shape]
  have sb : ∀ {α β : Type} (x : Res α) (f f' : α → Res β), (∀ a, x = .ok a → (f a).shape = (f' a).shape) →
      (x >>= f).shape = (x >>= f').shape := by
    intro α β x f f' h
    cases x with
    | ok a => exact h a rfl
    | err e => rfl
    | panic => rfl
    | diverge => rfl
  have sm : ∀ {α β : Type} (x : Res α) (f : α → β), (x >>= fun a => .ok (f a)).shape = x.shape := by
    intro α β x f
    cases x <;> rfl
  rw [bfusePFromImpl_eq, bfusePFromImpl_eq]
  split
  · rfl
  · refine sb _ _ _ fun lay _ => ?_
    refine sb _ _ _ fun hashes hh => ?_
    have hl := mapRes_length hh
    rw [if_neg (by omega), if_neg (by omega)]
    refine sb _ _ _ fun stk _ => ?_
    rw [sm, sm]
    exact key lay.geom hashes hl stk _ _ (by simp)

/-- **C38.** For fixed keys, seed, sizes and modulus, two constructions with different data (one per key),
labels and unused-slot contents have the same outcome: both return a filter, or both fail in the same
way. No load hypothesis is needed. -/
theorem C38_columns_together (prof : Profile) (segExp cap0 : Nat) (fp0 fp0' : Nat → U32)
    (seed : List U8) (keys : List Key) (data data' : List U32) (label label' ptxtMod : U64)
    (hd : data.length = keys.length) (hd' : data'.length = keys.length) :
    (BinaryFuseP32.fromSlice prof segExp cap0 fp0 seed keys data label ptxtMod).shape =
    (BinaryFuseP32.fromSlice prof segExp cap0 fp0' seed keys data' label' ptxtMod).shape := by
  unfold BinaryFuseP32.fromSlice
  rw [if_neg (by omega), if_neg (by omega)]
  exact bfp_shape prof segExp cap0 bfpMaxIter fp0 fp0' seed keys data data' label label' ptxtMod hd hd'

end Chalamet
