import Verif.Props.OwnTestsKv
import Verif.Props.Build
import Verif.Props.Peeling
import Verif.Props.Sizes
import Verif.Props.Sharp

/-!
# C110: when the project's own tests pass (src/db/kv.rs, bff-modp)
-/

namespace Chalamet
open Spec Finset

/-! ## bff-modp -/

/-- **C110 (membership filters).** `test_initialization` of the binary fuse filters, for any keys: if the construction returns a
filter (and, in release builds, no slot carries 64 keys) it passes; if the construction fails or panics it fails. -/
theorem C110_binary_fuse_test (w : Nat) (prof : Profile) (segExp cap0 : Nat) (fp0 : Nat → BitVec w) (keys : List U64) :
    (∀ f, BinaryFuse.tryFrom w prof segExp cap0 fp0 keys = .ok f →
      (prof = .debug ∨ ∀ s, slotLoadX f.geom f.seed keys s < 64) →
      testBinaryFuse w prof segExp cap0 fp0 keys = .ok ()) ∧
    ((∃ e, BinaryFuse.tryFrom w prof segExp cap0 fp0 keys = .err e) ∨
        BinaryFuse.tryFrom w prof segExp cap0 fp0 keys = .panic →
      testBinaryFuse w prof segExp cap0 fp0 keys = .panic) := by
  constructor
  · intro f hf hload
    unfold testBinaryFuse
    rw [hf, Res.unwrap_ok, Res.bind_ok, forRes_ok]
    intro k hk
    rw [C40_no_false_negatives w prof segExp cap0 fp0 keys f hf hload k hk]
    rfl
  · rintro (⟨e, h⟩ | h) <;> (unfold testBinaryFuse; rw [h]; rfl)

theorem canPeel_singleton {α β : Type} {touch : α → β → Prop} {k : α} (h : ∃ s, touch k s) : CanPeel touch [k] := by
  obtain ⟨s, hs⟩ := h
  exact ⟨[k], List.Perm.refl _, ⟨s, hs, by simp⟩, trivial⟩

/-- **C110 (one key).** `test_build_failure_with_subtraction_overflow` passes for every key, every initial content, every
fingerprint size and both build profiles. -/
theorem C110_one_key_test (log : ℚ → ℚ) (hlog : LogAccurate log) (w : Nat) (prof : Profile) (fp0 : Nat → BitVec w) (k : U64) :
    testBinaryFuse w prof (bfSegExp log 1) (bfCap0 log 1) fp0 [k] = .ok () := by
  obtain ⟨lay, hlay, -⟩ := C76_tiny log hlog 1 le_rfl
  have hload : ∀ g sd s, slotLoadX g sd [k] s < 64 := by
    intro g sd s
    have : slotLoadX g sd [k] s ≤ 1 := by
      unfold slotLoadX
      exact le_trans (List.length_filter_le _ _) (by simp)
    omega
  have hp : CanPeel (touchesX lay.geom (splitmixSeed 1#64 0)) [k] := canPeel_singleton ⟨_, .inl rfl⟩
  rcases C57_binary_fuse w prof (bfSegExp log 1) (bfCap0 log 1) fp0 [k] lay hlay (by simp) (fun t _ _ s => hload _ _ s) with
    ⟨f, t, hf, -⟩ | ⟨-, h⟩
  · exact (C110_binary_fuse_test w prof _ _ fp0 [k]).1 f hf (.inr fun s => hload _ _ s)
  · exact absurd hp (h 0 (by omega))

/-- **C110 (filters of the key-value store).** `test_initialization` and `test_hashes` of `BinaryFuseP32`, for any keys and any
modulus `2^b`: when the construction returns a filter and the key hashes differ, both pass iff every datum is below the modulus
(as they are in the tests); when the construction fails or panics, both fail. -/
theorem C110_filter_tests (prof : Profile) (segExp cap0 : Nat) (fp0 : Nat → U32) (seed : List U8) (keys : List Key)
    (data : List U32) (label p : U64) (b : Nat) (hb : b ≤ 31) (hp : p.toNat = 2 ^ b) :
    (∀ f, BinaryFuseP32.fromSlice prof segExp cap0 fp0 seed keys data label p = .ok f →
      (prof = .debug ∨ ∀ s, slotLoad seed f.geom keys s < 64) → (keys.map fun k => mix256 k seed).Nodup →
      (testFilterRetrieve prof segExp cap0 fp0 seed keys data label p = .ok () ↔ ∀ d ∈ data, d.toNat < 2 ^ b) ∧
      (testFilterHashes prof segExp cap0 fp0 seed keys data label p = .ok () ↔ ∀ d ∈ data, d.toNat < 2 ^ b)) ∧
    ((∃ e, BinaryFuseP32.fromSlice prof segExp cap0 fp0 seed keys data label p = .err e) ∨
        BinaryFuseP32.fromSlice prof segExp cap0 fp0 seed keys data label p = .panic →
      testFilterRetrieve prof segExp cap0 fp0 seed keys data label p = .panic ∧
      testFilterHashes prof segExp cap0 fp0 seed keys data label p = .panic) := by
  constructor
  · intro f hf hload hdist
    obtain ⟨hdl, hret⟩ := C28_retrieve_distinct prof segExp cap0 fp0 seed keys data label p f hf
      (by rw [hp]; exact Nat.pow_dvd_pow 2 (by omega))
      (by rw [hp]; exact Nat.pow_lt_pow_right (by omega) (by omega)) hload (by
        intro i j hi hj e
        have e' : (keys.map fun k => mix256 k seed)[i]'(by simpa using hi) =
            (keys.map fun k => mix256 k seed)[j]'(by simpa using hj) := by simpa using e
        exact (List.Nodup.getElem_inj_iff hdist).1 e')
    have hcmp : ∀ i (hi : i < keys.length) (x : U32), x.toNat = (data[i]'(by omega)).toNat % p.toNat →
        (assertEq (data[i]'(by omega)) x = .ok () ↔ (data[i]'(by omega)).toNat < 2 ^ b) := by
      intro i hi x hx
      unfold assertEq
      rw [hp] at hx
      constructor
      · intro h
        split at h
        · rename_i e
          rw [e] at hx ⊢
          rw [hx]
          exact Nat.mod_lt _ (Nat.two_pow_pos b)
        · cases h
      · intro h
        rw [Nat.mod_eq_of_lt h] at hx
        rw [if_pos (BitVec.eq_of_toNat_eq hx.symm)]
    have hiff : (∀ i (hi : i < keys.length), (data[i]'(by omega)).toNat < 2 ^ b) ↔ ∀ d ∈ data, d.toNat < 2 ^ b := by
      constructor
      · intro h d hd
        obtain ⟨i, hi, rfl⟩ := List.getElem_of_mem hd
        exact h i (by omega)
      · intro h i hi
        exact h _ (List.getElem_mem _)
    constructor
    · unfold testFilterRetrieve
      rw [hf, Res.unwrap_ok, Res.bind_ok, forRes_ok, ← hiff]
      apply forall_congr'
      intro i
      rw [List.mem_range]
      apply forall_congr'
      intro hi
      obtain ⟨x, hx, hxv⟩ := hret i hi (by omega)
      rw [rd_ok (show i < data.length by omega), Res.bind_ok, rd_ok hi, Res.bind_ok, hx, Res.bind_ok]
      exact hcmp i hi x hxv
    · unfold testFilterHashes
      rw [hf, Res.unwrap_ok, Res.bind_ok, forRes_ok, ← hiff]
      apply forall_congr'
      intro i
      rw [List.mem_range]
      apply forall_congr'
      intro hi
      obtain ⟨x, hx, hxv⟩ := hret i hi (by omega)
      have hseed' : seed.length = 32 := fromSlice_seed (by omega) hf
      obtain ⟨lay, s, _, _, _, hg, hs, hpm⟩ := bfp_wf (fromSlice_fromVec hf)
      obtain ⟨h, hh⟩ := mix256_total hseed' keys[i]
      have ho := slotsOk hg h
      have hpow : 2 ^ b ≤ 2 ^ 31 := Nat.pow_le_pow_right (by omega) hb
      have hp' : f.ptxtMod.toNat = 2 ^ b := by rw [hpm, hp]
      have hlt : f.ptxtMod.toNat < 2 ^ 32 := by omega
      have hpn : (f.ptxtMod.setWidth 32 : U32).toNat = 2 ^ b := by rw [setWidth_toNat_lt hlt, hp']
      have hpne : (f.ptxtMod.setWidth 32 : U32) ≠ 0#32 :=
        setWidth_ne_zero (by rw [hp']; exact Nat.two_pow_pos b) hlt
      have hrd : ∀ {k : Nat}, k < f.fingerprints.length → rd f.fingerprints k = .ok (f.fingerprints.getD k 0#32) := by
        intro k hk
        rw [rd_ok hk, getD_lt hk]
      have hev : BinaryFuseP32.hashEval prof keys[i] seed f.geom =
          .ok [slotN f.geom h 0, slotN f.geom h 1, slotN f.geom h 2] := by
        simp [BinaryFuseP32.hashEval, hh, slotN, hashOfHashC_ok hg]
      have hre := retrieve_eq (f := f) (label := label) (by rw [hs]; exact hh) ho rfl hpne
      rw [hre] at hx
      have hx' := Res.ok.inj hx
      rw [rd_ok hi, Res.bind_ok, hev, Res.bind_ok]
      simp only [foldRes, hrd ho.l0, hrd ho.l1, hrd ho.l2, Res.bind_ok, BinaryFuseP32.getKeyFingerprint, hh,
        rd_ok (show i < data.length by omega)]
      unfold modPlain
      rw [if_neg hpne, Res.bind_ok]
      apply hcmp i hi
      have hd : 2 ^ b ∣ 2 ^ 32 := Nat.pow_dvd_pow 2 (by omega)
      have hm : ((mix h label % f.ptxtMod).setWidth 32 : U32).toNat % 2 ^ b = ((mix h label).setWidth 32 : U32).toNat % 2 ^ b := by
        rw [BitVec.toNat_setWidth, Nat.mod_mod_of_dvd _ hd, BitVec.toNat_setWidth, Nat.mod_mod_of_dvd _ hd]
        rw [BitVec.toNat_umod, hp', Nat.mod_mod]
      rw [← hxv, ← hx', BitVec.zero_add]
      generalize f.fingerprints.getD (slotN f.geom h 0) 0#32 + f.fingerprints.getD (slotN f.geom h 1) 0#32 +
        f.fingerprints.getD (slotN f.geom h 2) 0#32 = u
      rw [BitVec.toNat_umod, BitVec.toNat_umod, hpn, BitVec.toNat_add, BitVec.toNat_add, Nat.mod_mod_of_dvd _ hd,
        Nat.mod_mod_of_dvd _ hd, Nat.add_mod, ← hm, ← Nat.add_mod]
  · rintro (⟨e, h⟩ | h) <;>
      (constructor
       · unfold testFilterRetrieve; rw [h]; rfl
       · unfold testFilterHashes; rw [h]; rfl)

/-! ## src/db/kv.rs -/

theorem oneKey_load (seed : List U8) (g : Geom) (k : Key) (s : Nat) : slotLoad seed g [k] s < 64 := by
  have : slotLoad seed g [k] s ≤ 1 := by
    unfold slotLoad
    exact le_trans (List.length_filter_le _ _) (by simp)
  omega

theorem testSame_ok {v : List (List Nat)} {x : List Nat} {len : Nat} (hl : len ≤ v.length) (h : ∀ y ∈ v, y = x) :
    testSame v len = .ok () := by
  unfold testSame
  rw [forRes_ok]
  intro i hi
  have hi' : i < len := List.mem_range.1 (List.mem_of_mem_tail hi)
  rw [rd_ok (show 0 < v.length by omega), Res.bind_ok, rd_ok (show i < v.length by omega), Res.bind_ok,
    h _ (List.getElem_mem (show 0 < v.length by omega)), h _ (List.getElem_mem (show i < v.length by omega))]
  simp [assertEq]

/-- The database of the one-pair tests can be built. -/
theorem oneKey_db {prof : Profile} {segExp cap0 : Nat} {fp0 : Nat → Nat → U32} {seed : List U8} {kv : KeyValue} {b : Nat}
    {lay : Layout} (hlay : bfLayout 1 segExp cap0 = .ok lay) (hseed : seed.length = 32) (hb1 : 1 ≤ b) (hb : b ≤ 31)
    (hdebug : prof = .debug → 8 ≤ b) (hne : kv.value ≠ []) :
    ∃ db, KVDatabase.new prof segExp cap0 fp0 seed [kv] 1 (b * kv.value.length) b = .ok db := by
  have hl : 0 < kv.value.length := List.length_pos_iff.2 hne
  have hw : width (b * kv.value.length) b = kv.value.length := by
    unfold width
    rw [Nat.add_sub_assoc hb1, Nat.mul_add_div (by omega), Nat.div_eq_of_lt (by omega), Nat.add_zero]
  obtain ⟨h, hh⟩ := mix256_total hseed kv.key
  have hp : CanPeel (touchesP seed lay.geom) [kv.key] :=
    canPeel_singleton ⟨slotN lay.geom h 0, (touchesP_iff hh _).1 (on_slot lay.geom h 0)⟩
  obtain ⟨shard, hsh⟩ := (C62_kv_build prof (fun _ _ => 0#32) [] segExp cap0 fp0 seed [kv] 0 1 (b * kv.value.length) b lay
    (Nat.mul_pos (by omega) hl) hb1 hb hdebug (by simp) (by simp [hw]) hlay hseed (fun s => oneKey_load _ _ _ _)
    (by simp)).1 hp
  unfold KVShard.new at hsh
  obtain ⟨db, hdb, _⟩ := Res.bind_eq_ok.1 hsh
  exact ⟨db, hdb⟩

/-- **C110 (one-pair tests).** The four tests of src/db/kv.rs that store one pair pass for every key, every nonempty value with
entries below `2^b`, every 32-byte seed and every initial content of the filters, in both build profiles (`8 ≤ b` in debug
builds; the tests have `b = 10`). -/
theorem C110_one_pair_tests (log : ℚ → ℚ) (hlog : LogAccurate log) (prof : Profile) (fp0 : Nat → Nat → U32) (seed : List U8)
    (hseed : seed.length = 32) (kv : KeyValue) (b : Nat) (hb1 : 1 ≤ b) (hb : b ≤ 31) (hdebug : prof = .debug → 8 ≤ b)
    (hne : kv.value ≠ []) (hlt : ∀ v ∈ kv.value, v.toNat < 2 ^ b) :
    testRetrieval prof (bfSegExp log 1) (bfCap0 log 1) fp0 seed kv b = .ok () ∧
    testHashes prof (bfSegExp log 1) (bfCap0 log 1) fp0 seed kv b = .ok () ∧
    testDbRetrieval prof (bfSegExp log 1) (bfCap0 log 1) fp0 seed kv b = .ok () ∧
    testMult prof (bfSegExp log 1) (bfCap0 log 1) fp0 seed kv b = .ok () := by
  obtain ⟨lay, hlay, -⟩ := C76_tiny log hlog 1 le_rfl
  generalize bfSegExp log 1 = segExp at *
  generalize bfCap0 log 1 = cap0 at *
  have hl : 0 < kv.value.length := List.length_pos_iff.2 hne
  obtain ⟨db, hdb⟩ := oneKey_db (fp0 := fp0) (kv := kv) hlay hseed hb1 hb hdebug hne
  have hdist : ([kv].map fun kv => mix256 kv.key seed).Nodup := by simp
  have hcell := fun {j : Nat} (hj : j < db.entries.length) (want : U32) => testKvCell_stored hb hdb
    (.inr fun s => oneKey_load _ _ _ _) hdist (i := 0) (by simp) hj want
  obtain ⟨lay', p, w, h0, hwv, hw0, hlay', hp, hfp, hdm, hdT, hdb', hel, hcols⟩ := kvNew_ok hdb
  simp only [List.length_cons, List.length_nil, Nat.zero_add, List.getElem_cons_zero] at hlay' hwv
  rw [hlay] at hlay'
  cases hlay'
  have hent : db.entries.length = kv.value.length := by omega
  obtain ⟨a, b', c, hev, -⟩ := hcell (j := 0) (by omega) 0#32
  simp only [List.getElem_cons_zero] at hev hcell
  have hev' : BinaryFuseP32.hashEval prof kv.key seed lay.geom = .ok [a, b', c] := by
    rw [FilterParams.getHashEvals, hfp] at hev
    exact hev
  have hm : mapRes (fun _ : Nat => BinaryFuseP32.hashEval prof kv.key seed lay.geom) (List.range kv.value.length) =
      .ok ((List.range kv.value.length).map fun _ => [a, b', c]) :=
    mapRes_ok_of_forall fun _ _ => hev'
  have hsame : testSame ((List.range kv.value.length).map fun _ => [a, b', c]) kv.value.length = .ok () :=
    testSame_ok (x := [a, b', c]) (by simp) (by simp)
  have hmod : ∀ j (hj : j < kv.value.length), BitVec.ofNat 32 (kv.value[j].toNat % 2 ^ b) = kv.value[j] := by
    intro j hj
    rw [Nat.mod_eq_of_lt (hlt _ (List.getElem_mem hj))]
    simp
  obtain ⟨filters, geom, hst, hcolsF⟩ : ∃ filters geom, storageFiltersFromKvs prof segExp cap0 fp0 seed [kv] kv.value.length b =
      .ok (filters, geom) ∧ mapRes BinaryFuseP32.getFingerprintsMod filters = .ok db.entries := by
    unfold KVDatabase.new at hdb
    obtain ⟨kv0, e1, hdb⟩ := Res.bind_eq_ok.1 hdb
    obtain ⟨⟨filters, geom⟩, e2, hdb⟩ := Res.bind_eq_ok.1 hdb
    obtain ⟨cols, e3, hdb⟩ := Res.bind_eq_ok.1 hdb
    cases hdb
    obtain ⟨_, e1⟩ := rd_eq_ok' e1
    simp only [List.getElem_cons_zero] at e1
    subst e1
    exact ⟨filters, geom, e2, e3⟩
  have hfl : filters.length = kv.value.length := by rw [← hent, mapRes_length hcolsF]
  have hflt : ∀ j (hj : j < filters.length), BinaryFuseP32.fromSlice prof segExp cap0 (fp0 j) seed [kv.key]
      [kv.value[j]'(by omega)] (BitVec.ofNat 64 j) p = .ok filters[j] := by
    intro j hj
    have hst' := hst
    unfold storageFiltersFromKvs at hst'
    obtain ⟨fs, e1, hst'⟩ := Res.bind_eq_ok.1 hst'
    obtain ⟨f0, e2, hst'⟩ := Res.bind_eq_ok.1 hst'
    have hfs : fs = filters := (Prod.mk.inj (Res.ok.inj hst')).1
    subst hfs
    have e3 := mapRes_getElem e1 (i := j) (by simp; omega) hj
    rw [List.getElem_range] at e3
    unfold columnFilter at e3
    rw [mapRes_cons, rd_ok (show j < kv.value.length by omega)] at e3
    simp only [Res.bind_ok, mapRes, hp, List.map_cons, List.map_nil] at e3
    cases hx : BinaryFuseP32.fromSlice prof segExp cap0 (fp0 j) seed [kv.key] [kv.value[j]'(by omega)] (BitVec.ofNat 64 j) p with
    | ok f => rw [hx] at e3; exact e3
    | err e => rw [hx] at e3; cases e3
    | panic => rw [hx] at e3; cases e3
    | diverge => rw [hx] at e3; cases e3
  have hgeom : geom = lay.geom := by
    have hst' := hst
    unfold storageFiltersFromKvs at hst'
    obtain ⟨fs, e1, hst'⟩ := Res.bind_eq_ok.1 hst'
    obtain ⟨f0, e2, hst'⟩ := Res.bind_eq_ok.1 hst'
    have hfs := Prod.mk.inj (Res.ok.inj hst')
    obtain ⟨hi, e2⟩ := rd_eq_ok' e2
    obtain ⟨_, lay2, _, hlay2, hg, _⟩ := fromSlice_wf (hflt 0 (by omega))
    rw [show [kv.key].length = 1 from rfl, hlay] at hlay2
    cases hlay2
    rw [← hfs.2, ← hg, ← e2]
    simp only [hfs.1]
  have hpv := pow2U64_val hb hp
  refine ⟨?_, ?_, ?_, ?_⟩
  · unfold testRetrieval
    simp only [hst, Res.unwrap_ok, Res.bind_ok]
    rw [forRes_ok]
    intro j hj
    have hj' : j < kv.value.length := List.mem_range.1 hj
    obtain ⟨-, hret⟩ := C28_retrieve_distinct prof segExp cap0 (fp0 j) seed [kv.key] [kv.value[j]] (BitVec.ofNat 64 j) p _
      (hflt j (by omega)) (by rw [hpv]; exact Nat.pow_dvd_pow 2 (by omega))
      (by rw [hpv]; exact Nat.pow_lt_pow_right (by omega) (by omega)) (.inr fun s => oneKey_load _ _ _ _)
      (by intro i k hi hk _; simp at hi hk; omega)
    obtain ⟨x, hx, hxv⟩ := hret 0 (by simp) (by simp)
    simp only [List.getElem_cons_zero, hpv] at hx hxv
    rw [Nat.mod_eq_of_lt (hlt _ (List.getElem_mem hj'))] at hxv
    rw [rd_ok (show j < filters.length by omega), Res.bind_ok, hx, Res.bind_ok, rd_ok hj', Res.bind_ok,
      BitVec.eq_of_toNat_eq hxv]
    simp [assertEq]
  · unfold testHashes
    simp only [hst, Res.unwrap_ok, Res.bind_ok, hgeom, hm]
    exact hsame
  · unfold testDbRetrieval
    simp only [hdb, Res.unwrap_ok, Res.bind_ok, hfp, hm, hsame]
    rw [forRes_ok]
    intro j hj
    simp only [List.length_map, List.length_range, List.mem_range] at hj
    obtain ⟨a2, b2, c2, hev2, hv, hc, -⟩ := hcell (j := j) (by omega) kv.value[j]
    rw [hev] at hev2
    simp only [Res.ok.injEq] at hev2
    rw [rd_ok (by simpa using hj), Res.bind_ok, List.getElem_map, rd_ok hj, Res.bind_ok]
    rw [← hev2, hmod j hj] at hc
    rw [hc]
    simp [assertEq]
  · have hcl : ∀ col ∈ db.entries, col.length = lay.arrayLen := by
      intro col hc
      obtain ⟨j, hj, rfl⟩ := List.getElem_of_mem hc
      obtain ⟨_, _, _, _, _, _, _, _, _, h⟩ := hcols j hj
      exact h
    have hheight : db.getMatrixHeight = .ok lay.arrayLen := by
      unfold KVDatabase.getMatrixHeight
      rw [rd_ok (by omega), Res.bind_ok, hcl _ (List.getElem_mem _)]
    obtain ⟨i1, i2, i3, hev3, l1, l2, l3, d1, d2, d3⟩ := getHashEvals_ok prof hlay (fp := db.filterParams) (by rw [hfp])
      (by rw [hfp]; exact hseed) kv.key
    rw [hev] at hev3
    simp only [Res.ok.injEq, List.cons.injEq, and_true] at hev3
    obtain ⟨rfl, rfl, rfl⟩ := hev3
    have hwr : ∀ {u : List U32} {k : Nat}, k < u.length → wr u k 1#32 = .ok (u.set k 1#32) := by
      intro u k hk
      simp [wr, hk]
    have hmult : foldRes (fun (u : List U32) idx => wr u idx 1#32) (List.replicate lay.arrayLen 0#32) [a, b', c] =
        .ok ((((List.replicate lay.arrayLen 0#32).set a 1#32).set b' 1#32).set c 1#32) := by
      simp only [foldRes]
      rw [hwr (by simpa using l1), Res.bind_ok, hwr (by simpa using l2), Res.bind_ok, hwr (by simpa using l3), Res.bind_ok]
    unfold testMult
    simp only [hdb, Res.unwrap_ok, Res.bind_ok, hheight, hfp, hm, hsame]
    rw [rd_ok (by simpa using hl), Res.bind_ok, List.getElem_map, hmult, Res.bind_ok, forRes_ok]
    intro j hj
    have hj' : j < kv.value.length := by simpa using hj
    obtain ⟨a2, b2, c2, hev2, hv, -, x, y, z, hx, hy, hz, fpr, hfpr, hsum⟩ := hcell (j := j) (by omega) kv.value[j]
    rw [hev] at hev2
    simp only [Res.ok.injEq, List.cons.injEq, and_true] at hev2
    obtain ⟨rfl, rfl, rfl⟩ := hev2
    have hjl := hcl _ (List.getElem_mem (show j < db.entries.length by omega))
    have hd := dot_three (D := 1#32) (c := db.entries[j]) (n := lay.arrayLen) (u := List.replicate lay.arrayLen 0#32)
      (q := (((List.replicate lay.arrayLen 0#32).set a 1#32).set b' 1#32).set c 1#32) (by simp) (by simp) hjl l1 l2 l3 d1 d2 d3
      (by
        intro k hk
        rw [getD_lt (by simpa using hk), getD_lt (by simpa using hk)]
        simp only [List.getElem_set, List.getElem_replicate, List.mem_cons, List.not_mem_nil, or_false, BitVec.zero_add]
        by_cases e1 : c = k
        · simp [e1]
        · by_cases e2 : b' = k
          · simp [e2]
          · by_cases e3 : a = k
            · simp [e3]
            · simp [e1, e2, e3, Ne.symm e1, Ne.symm e2, Ne.symm e3])
    have hg : ∀ {k : Nat} {v : U32}, db.entries[j][k]? = some v → db.entries[j].getD k 0#32 = v := by
      intro k v h
      rw [List.getD_eq_getElem?_getD, h]
      rfl
    rw [rd_ok hj', Res.bind_ok, kvVecMult_ok hcl (show j < db.entries.length by omega) (by simp), Res.bind_ok,
      getD_lt (show j < db.entries.length by omega), hd, hg hx, hg hy, hg hz, dot_zeros]
    simp only [FilterParams.unmaskValue, hfpr, Res.bind_ok, getPlaintextSize_ok hb, modPlain_ok hb]
    rw [show (0#32 : U32) + 1#32 * (x + y + z) + fpr.setWidth 32 = x + y + z + fpr.setWidth 32 by
      rw [BitVec.zero_add, BitVec.one_mul], hsum, hmod j hj']
    simp [assertEq]
end Chalamet
