import Verif.Props.OwnTests
import Verif.Props.Kv
import Verif.Props.KvServer
import Verif.Props.KvStrings
import Verif.Props.Published

/-!
# C110: when the project's own tests pass (keyword tests of src/api.rs, src/db/kv.rs)
-/

namespace Chalamet
open Spec Finset

/-- What the tests compute by hand for a stored key and a column: the stored value modulo `2^b`. -/
theorem testKvCell_stored {prof : Profile} {segExp cap0 : Nat} {fp0 : Nat → Nat → U32} {seed : List U8}
    {kvs : List KeyValue} {m T b : Nat} {db : KVDatabase} (hb : b ≤ 31)
    (hdb : KVDatabase.new prof segExp cap0 fp0 seed kvs m T b = .ok db)
    (hload : prof = .debug ∨ ∀ s, slotLoad seed db.filterParams.geom (kvs.map (·.key)) s < 64)
    (hdist : (kvs.map fun kv => mix256 kv.key seed).Nodup) {i : Nat} (hi : i < kvs.length) {j : Nat}
    (hj : j < db.entries.length) (want : U32) :
    ∃ a b' c, db.filterParams.getHashEvals prof kvs[i].key = .ok [a, b', c] ∧ ∃ hv : j < kvs[i].value.length,
      testKvCell prof db b kvs[i].key want j [a, b', c] =
        assertEq want (BitVec.ofNat 32 (kvs[i].value[j].toNat % 2 ^ b)) ∧
      (∃ x y z : U32, db.entries[j][a]? = some x ∧ db.entries[j][b']? = some y ∧ db.entries[j][c]? = some z ∧
        ∃ fpr, BinaryFuseP32.getKeyFingerprint kvs[i].key seed (BitVec.ofNat 64 j) = .ok fpr ∧
        (x + y + z + fpr.setWidth 32).toNat % 2 ^ b = kvs[i].value[j].toNat % 2 ^ b) := by
  obtain ⟨lay, p, w, h0, hwv, hw0, hlay, hp, hfp, hdm, hdT, hdb', hel, hcols⟩ := kvNew_ok hdb
  have hpv := pow2U64_val hb hp
  obtain ⟨data, f, hdl, hdv, hbuilt, hg, hfs, hfl, hpub, hcl⟩ := hcols j hj
  have hseed : seed.length = 32 := fromSlice_seed (by simpa using h0) hbuilt
  obtain ⟨hv, hdvi⟩ := hdv i hi (by omega)
  obtain ⟨col, a, b', c, x, y, z, fpr, r, h1, h2, h3, h4, h5, h6, h7, h8, h9⟩ := C36_unmask prof segExp cap0 (fp0 j) seed
    (kvs.map (·.key)) data (BitVec.ofNat 64 j) p f (fromSlice_fromVec hbuilt) b hb hpv hseed kvs[i].key (BitVec.ofNat 64 j)
  rw [hpub] at h1
  cases h1
  rw [hg, hfs] at h3
  rw [hfs] at h7
  obtain ⟨-, hret⟩ := C28_retrieve_distinct prof segExp cap0 (fp0 j) seed (kvs.map (·.key)) data (BitVec.ofNat 64 j) p f hbuilt
    (by rw [hpv]; exact Nat.pow_dvd_pow 2 (by omega))
    (by rw [hpv]; exact Nat.pow_lt_pow_right (by omega) (by omega))
    (by rw [hg]; rw [hfp] at hload; exact hload)
    (by
      intro p q hp' hq' e
      simp only [List.getElem_map] at e
      have e' : (kvs.map fun kv => mix256 kv.key seed)[p]'(by simpa using hp') =
          (kvs.map fun kv => mix256 kv.key seed)[q]'(by simpa using hq') := by simpa using e
      exact (List.Nodup.getElem_inj_iff hdist).1 e')
  obtain ⟨x', hx', hxv⟩ := hret i (by simpa using hi) (by omega)
  rw [List.getElem_map] at hx'
  rw [h8] at hx'
  cases hx'
  rw [hpv, hdvi] at hxv
  have hsum : (x + y + z + fpr.setWidth 32).toNat % 2 ^ b = kvs[i].value[j].toNat % 2 ^ b := by
    rw [← hxv, h9]
    have hd : (2 : Nat) ^ b ∣ 2 ^ 32 := Nat.pow_dvd_pow 2 (by omega)
    simp only [BitVec.toNat_add, BitVec.toNat_setWidth]
    rw [Nat.mod_mod_of_dvd _ hd]
    simp only [Nat.add_mod, Nat.mod_mod_of_dvd _ hd, Nat.mod_mod]
  refine ⟨a, b', c, by rw [FilterParams.getHashEvals, hfp]; exact h3, hv, ?_, x, y, z, h4, h5, h6, fpr, h7, hsum⟩
  have hr : ∀ {k : Nat} {v : U32}, db.entries[j][k]? = some v → rd db.entries[j] k = .ok v := by
    intro k v h
    unfold rd
    rw [h]
  unfold testKvCell
  simp only [foldRes, rd_ok hj, Res.bind_ok, hr h4, hr h5, hr h6, FilterParams.unmaskValue, hfp, h7, getPlaintextSize_ok hb,
    modPlain_ok hb]
  rw [show (0#32 : U32) + x + y + z + fpr.setWidth 32 = x + y + z + fpr.setWidth 32 by rw [BitVec.zero_add], hsum]

/-- The checks of `client_kv_query_to_server_10_times` on one stored pair pass iff its values are below `2^b`. -/
theorem testKvPair_stored {prof : Profile} {segExp cap0 : Nat} {fp0 : Nat → Nat → U32} {seed : List U8}
    {kvs : List KeyValue} {m T b : Nat} {db : KVDatabase} (hb : b ≤ 31)
    (hdb : KVDatabase.new prof segExp cap0 fp0 seed kvs m T b = .ok db)
    (hload : prof = .debug ∨ ∀ s, slotLoad seed db.filterParams.geom (kvs.map (·.key)) s < 64)
    (hdist : (kvs.map fun kv => mix256 kv.key seed).Nodup) {i : Nat} (hi : i < kvs.length)
    (hlt : ∀ v ∈ kvs[i].value, v.toNat < 2 ^ b) : testKvPair prof db b kvs[i] = .ok () := by
  obtain ⟨lay, p, w, h0, hwv, hw0, hlay, hp, hfp, hdm, hdT, hdb', hel, hcols⟩ := kvNew_ok hdb
  obtain ⟨a, b', c, hev, -⟩ := testKvCell_stored hb hdb hload hdist hi (j := 0) (by omega) 0#32
  have hm : mapRes (fun _ : Nat => db.filterParams.getHashEvals prof kvs[i].key) (List.range db.entries.length) =
      .ok ((List.range db.entries.length).map fun _ => [a, b', c]) :=
    mapRes_ok_of_forall fun _ _ => hev
  unfold testKvPair
  rw [hm, Res.bind_ok, forRes_ok]
  intro j hj
  simp only [List.length_map, List.length_range, List.mem_range] at hj
  obtain ⟨a2, b2, c2, hev2, hv, hcell, -⟩ := testKvCell_stored hb hdb hload hdist hi hj (kvs[i].value.getD j 0#32)
  rw [hev] at hev2
  simp only [Res.ok.injEq] at hev2
  rw [rd_ok (by simpa using hj), Res.bind_ok, List.getElem_map, rd_ok hv, Res.bind_ok]
  rw [← hev2, getD_lt hv] at hcell
  rw [hcell, Nat.mod_eq_of_lt (hlt _ (List.getElem_mem hv))]
  simp [assertEq]

/-- One query of the keyword test. -/
theorem testKvBody_outcome {prof : Profile} {prg : Prg} {pseed : List U8} {segExp cap0 : Nat} {fp0 : Nat → Nat → U32}
    {seed : List U8} {kvs : List KeyValue} {n m T b : Nat} {shard : KVShard} (hb1 : 1 ≤ b) (hb : b ≤ 31) (hT : T < 2 ^ 64)
    (hsh : KVShard.new prof prg pseed segExp cap0 fp0 seed kvs n m T b = .ok shard)
    (hw : ∀ kv ∈ kvs, kv.value.length = width T b) (hlt : ∀ kv ∈ kvs, ∀ v ∈ kv.value, v.toNat < 2 ^ b)
    (hload : prof = .debug ∨ ∀ s, slotLoad seed shard.db.filterParams.geom (kvs.map (·.key)) s < 64)
    (hdist : (kvs.map fun kv => mix256 kv.key seed).Nodup) {tape s t1 e t2 : List U32}
    (hs : randomTernaryVector n tape = .ok (s, t1)) (he : randomTernaryVector shard.baseParams.m t1 = .ok (e, t2))
    {i : Nat} (hi : i < kvs.length) :
    let run := testKvBody prof prg shard kvs tape i
    (run = .ok () ↔ ∀ col ∈ shard.db.entries, InWindow b (dot e col)) ∧ (run = .ok () ∨ run = .panic) := by
  intro run
  obtain ⟨qp, t, hqp, -⟩ := kvShard_params hsh ⟨s, t1, e, t2, hs, he⟩
  obtain ⟨s', t1', e', hs', he', -, hall⟩ := C04_kv_pir prof prg pseed segExp cap0 fp0 seed kvs n m T b shard hb1 hb hT hsh hw
    hload tape t qp hqp
  rw [hs] at hs'
  cases hs'
  rw [he] at he'
  cases he'
  obtain ⟨qp', q, bytes, resp, row, hq, hresp, hdes, hparse, hrl, -, hrow⟩ := hall i hi (by
    intro k hk hik e
    have e' : (kvs.map fun kv => mix256 kv.key seed)[k]'(by simpa using hk) =
        (kvs.map fun kv => mix256 kv.key seed)[i]'(by simpa using hi) := by simpa using e
    have := (List.Nodup.getElem_inj_iff hdist).1 e'
    omega)
  have hval : (kvs[i].value.map fun v => BitVec.ofNat 32 (v.toNat % 2 ^ b)) = kvs[i].value := by
    conv_rhs => rw [← List.map_id kvs[i].value]
    apply List.map_congr_left
    intro v hv
    rw [Nat.mod_eq_of_lt (hlt _ (List.getElem_mem hi) v hv)]
    simp
  rw [hval] at hrow
  have hfin : run = if row = kvs[i].value then .ok () else .panic := by
    show testKvBody _ _ _ _ _ _ = _
    unfold testKvBody
    simp only [hqp, Res.unwrap_ok, Res.bind_ok, rd_ok hi, hq, hresp, hdes, hparse]
    rfl
  rw [hfin, ← hrow]
  by_cases h : row = kvs[i].value <;> simp [h]

theorem mapRes_of_map {α β γ : Type} (f : β → Res γ) (g : α → β) (l : List α) :
    mapRes f (l.map g) = mapRes (fun a => f (g a)) l := by
  induction l with
  | nil => rfl
  | cons a l ih => rw [List.map_cons, mapRes_cons, mapRes_cons, ih]

/-- The pairs the keyword test stores. -/
theorem testKvElems_pairs {prof : Profile} {sha : Sha} (hsha : ∀ x, (sha x).length = 32) (utf8 : List Char → List U8)
    (ent : Nat → U8) (num T b : Nat) (hb1 : 1 ≤ b) (hb : b ≤ 31) :
    ∃ kvs, collectEager (fun e => KeyValue.fromBase64Strings prof sha (utf8 e.1) e.2 T b)
        (testKvElems ent num ((T + 7) / 8)) = .ok kvs ∧ kvs.length = num ∧
      ∀ i (hi : i < kvs.length), kvs[i].value.length = width T b ∧ (∀ v ∈ kvs[i].value, v.toNat < 2 ^ b) ∧
        sha256IntoU64Sized sha (utf8 (b64Encode ((List.range 32).map fun k => ent (i * (32 + (T + 7) / 8) + k)))) =
          .ok kvs[i].key ∧
        kvs[i].value = rowOf b (width T b) ((List.range ((T + 7) / 8)).map fun k => ent (i * (32 + (T + 7) / 8) + 32 + k)) := by
  have hex : ∀ i, ∃ kv : KeyValue, KeyValue.fromBase64Strings prof sha
      (utf8 (b64Encode ((List.range 32).map fun k => ent (i * (32 + (T + 7) / 8) + k))))
      (b64Encode ((List.range ((T + 7) / 8)).map fun k => ent (i * (32 + (T + 7) / 8) + 32 + k))) T b = .ok kv ∧
      sha256IntoU64Sized sha (utf8 (b64Encode ((List.range 32).map fun k => ent (i * (32 + (T + 7) / 8) + k)))) =
          .ok kv.key ∧
        kv.value = rowOf b (width T b) ((List.range ((T + 7) / 8)).map fun k => ent (i * (32 + (T + 7) / 8) + 32 + k)) := by
    intro i
    have h1 := sha256IntoU64Sized_ok (hsha (utf8 (b64Encode ((List.range 32).map fun k => ent (i * (32 + (T + 7) / 8) + k)))))
    have h2 : kvConstructRow prof (b64Encode ((List.range ((T + 7) / 8)).map fun k => ent (i * (32 + (T + 7) / 8) + 32 + k)))
        b T = .ok (rowOf b (width T b) ((List.range ((T + 7) / 8)).map fun k => ent (i * (32 + (T + 7) / 8) + 32 + k))) := by
      rw [kvConstructRow_eq hb1]
      refine constructRow_ok (by omega) (b64Decode_encode _) ?_
      have := width_mul_le (T := T) (b := b) (by omega)
      simp only [List.length_map, List.length_range]
      omega
    refine ⟨⟨_, _⟩, ?_, h1, rfl⟩
    unfold KeyValue.fromBase64Strings
    rw [h1, Res.bind_ok, h2, Res.bind_ok]
    rfl
  choose kv hkv using hex
  refine ⟨(List.range num).map kv, ?_, by simp, ?_⟩
  · rw [collectEager_eq_ok]
    unfold testKvElems
    rw [mapRes_of_map]
    exact mapRes_ok_of_forall fun i _ => (hkv i).1
  · intro i hi
    simp only [List.getElem_map, List.getElem_range]
    refine ⟨?_, ?_, (hkv i).2.1, (hkv i).2.2⟩
    · rw [(hkv i).2.2]; simp [rowOf]
    · intro v hv
      rw [(hkv i).2.2] at hv
      unfold rowOf at hv
      obtain ⟨j, _, rfl⟩ := List.mem_map.1 hv
      rw [digit_toNat (by omega)]
      exact Nat.mod_lt _ (Nat.two_pow_pos b)

/-- **C110 (ten keyword queries).** `client_kv_query_to_server_10_times` with any sizes. The pairs it stores are the random
bytes it drew. If the shard cannot be built, it fails. If the shard is built and the keys have different hashes, all checks on
the pairs pass, no query is refused, and the test passes iff the noise of each query is in the window for each column. -/
theorem C110_kv_test (prof : Profile) (sha : Sha) (hsha : ∀ x, (sha x).length = 32) (prg : Prg) (utf8 : List Char → List U8)
    (ent : Nat → U8) (pseed : List U8) (segExp cap0 : Nat) (fp0 : Nat → Nat → U32) (filterSeed : List U8)
    (tapes : Nat → List U32) (m n T b count : Nat) (hb1 : 1 ≤ b) (hb : b ≤ 31) (hT : T < 2 ^ 64) (hcount : count ≤ m) :
    let run := testKv prof sha prg utf8 ent pseed segExp cap0 fp0 filterSeed tapes m n T b count
    ∃ kvs : List KeyValue, kvs.length = m ∧
      (∀ i (hi : i < kvs.length),
        sha256IntoU64Sized sha (utf8 (b64Encode ((List.range 32).map fun k => ent (i * (32 + (T + 7) / 8) + k)))) =
          .ok kvs[i].key ∧
        kvs[i].value = rowOf b (width T b) ((List.range ((T + 7) / 8)).map fun k => ent (i * (32 + (T + 7) / 8) + 32 + k))) ∧
      (KVShard.new prof prg pseed segExp cap0 fp0 filterSeed kvs n m T b = .panic → run = .panic) ∧
      ∀ shard, KVShard.new prof prg pseed segExp cap0 fp0 filterSeed kvs n m T b = .ok shard →
        (prof = .debug ∨ ∀ s, slotLoad filterSeed shard.db.filterParams.geom (kvs.map (·.key)) s < 64) →
        (kvs.map fun kv => mix256 kv.key filterSeed).Nodup →
        ∀ s t1 e t2 : Nat → List U32, (∀ i < count, randomTernaryVector n (tapes i) = .ok (s i, t1 i)) →
          (∀ i < count, randomTernaryVector shard.baseParams.m (t1 i) = .ok (e i, t2 i)) →
          (run = .ok () ↔ ∀ i < count, ∀ col ∈ shard.db.entries, InWindow b (dot (e i) col)) ∧
          (run = .ok () ∨ run = .panic) := by
  intro run
  obtain ⟨kvs, hk, hl, hkv⟩ := testKvElems_pairs (prof := prof) hsha utf8 ent m T b hb1 hb
  refine ⟨kvs, hl, fun i hi => ⟨(hkv i hi).2.2.1, (hkv i hi).2.2.2⟩, ?_, ?_⟩
  · intro hp
    show testKv _ _ _ _ _ _ _ _ _ _ _ _ _ _ _ _ = _
    unfold testKv
    simp only [hk, Res.unwrap_ok, Res.bind_ok, hp]
    rfl
  · intro shard hsh hload hdist s t1 e t2 hs he
    have hval : ∀ kv ∈ kvs, kv.value.length = width T b := by
      intro kv hm
      obtain ⟨i, hi, rfl⟩ := List.getElem_of_mem hm
      exact (hkv i hi).1
    have hlt : ∀ kv ∈ kvs, ∀ v ∈ kv.value, v.toNat < 2 ^ b := by
      intro kv hm
      obtain ⟨i, hi, rfl⟩ := List.getElem_of_mem hm
      exact (hkv i hi).2.1
    have hdb : KVDatabase.new prof segExp cap0 fp0 filterSeed kvs m T b = .ok shard.db := by
      unfold KVShard.new at hsh
      obtain ⟨db, hdb, hnew⟩ := Res.bind_eq_ok.1 hsh
      obtain ⟨bp, hbp, hnew⟩ := Res.bind_eq_ok.1 hnew
      cases hnew
      exact hdb
    have hpairs : forRes kvs (testKvPair prof shard.db b) = .ok () := by
      rw [forRes_ok]
      intro kv hm
      obtain ⟨i, hi, rfl⟩ := List.getElem_of_mem hm
      exact testKvPair_stored hb hdb hload hdist hi (hkv i hi).2.1
    have hrun : run = forRes (List.range count) fun i => testKvBody prof prg shard kvs (tapes i) i := by
      show testKv _ _ _ _ _ _ _ _ _ _ _ _ _ _ _ _ = _
      unfold testKv
      simp only [hk, Res.unwrap_ok, Res.bind_ok, hsh, hpairs]
    have hbody := fun i (hi : i < count) => testKvBody_outcome hb1 hb hT hsh hval hlt hload hdist (hs i hi) (he i hi)
      (show i < kvs.length by omega)
    rw [hrun]
    constructor
    · rw [forRes_ok]
      constructor
      · intro h i hi
        exact (hbody i hi).1.1 (h i (List.mem_range.2 hi))
      · intro h i hi
        rw [List.mem_range] at hi
        exact (hbody i hi).1.2 (h i hi)
    · exact forRes_ok_or_panic fun i hi => (hbody i (List.mem_range.1 hi)).2

open scoped Classical in
/-- **C110 (how often the keyword test passes).** For a shard that was built and secrets that are fixed, the test passes for at
least a fraction `1 - count * failureBound height T b` of all noise samples. -/
theorem C110_kv_rate (prof : Profile) (sha : Sha) (hsha : ∀ x, (sha x).length = 32) (prg : Prg) (utf8 : List Char → List U8)
    (ent : Nat → U8) (pseed : List U8) (segExp cap0 : Nat) (fp0 : Nat → Nat → U32) (filterSeed : List U8)
    (m n T b count : Nat) (hb1 : 1 ≤ b) (hb : b ≤ 31) (hT : T < 2 ^ 64) (hcount : count ≤ m) :
    ∃ kvs : List KeyValue, kvs.length = m ∧
      (∀ i (hi : i < kvs.length),
        sha256IntoU64Sized sha (utf8 (b64Encode ((List.range 32).map fun k => ent (i * (32 + (T + 7) / 8) + k)))) =
          .ok kvs[i].key ∧
        kvs[i].value = rowOf b (width T b) ((List.range ((T + 7) / 8)).map fun k => ent (i * (32 + (T + 7) / 8) + 32 + k))) ∧
      ∀ shard, KVShard.new prof prg pseed segExp cap0 fp0 filterSeed kvs n m T b = .ok shard →
        (prof = .debug ∨ ∀ s, slotLoad filterSeed shard.db.filterParams.geom (kvs.map (·.key)) s < 64) →
        (kvs.map fun kv => mix256 kv.key filterSeed).Nodup →
        ∀ ts s : Nat → List U32, (∀ i < count, randomTernaryVector n (ts i) = .ok (s i, [])) →
          (1 - count * failureBound shard.baseParams.m T b) *
            Fintype.card (Fin count → Fin shard.baseParams.m → Fin 4294967293) ≤
          ((univ.filter fun t : Fin count → Fin shard.baseParams.m → Fin 4294967293 =>
            testKv prof sha prg utf8 ent pseed segExp cap0 fp0 filterSeed (testTapes ts t) m n T b count = .ok ()).card : ℝ) := by
  obtain ⟨kvs, hk, hl, hkv⟩ := testKvElems_pairs (prof := prof) hsha utf8 ent m T b hb1 hb
  refine ⟨kvs, hl, fun i hi => ⟨(hkv i hi).2.2.1, (hkv i hi).2.2.2⟩, ?_⟩
  intro shard hsh hload hdist ts s hs
  have htest := fun t : Fin count → Fin shard.baseParams.m → Fin 4294967293 => C110_kv_test prof sha hsha prg utf8 ent pseed
    segExp cap0 fp0 filterSeed (testTapes ts t) m n T b count hb1 hb hT hcount
  choose ev rest hev using fun t : Fin shard.baseParams.m → Fin 4294967293 =>
    (⟨_, _, words_sampled t⟩ : ∃ e, ∃ rest, randomTernaryVector shard.baseParams.m (words t) = .ok (e, rest))
  have hdb : KVDatabase.new prof segExp cap0 fp0 filterSeed kvs m T b = .ok shard.db := by
    have hsh' := hsh
    unfold KVShard.new at hsh'
    obtain ⟨db, hdb, hnew⟩ := Res.bind_eq_ok.1 hsh'
    obtain ⟨bp, hbp, hnew⟩ := Res.bind_eq_ok.1 hnew
    cases hnew
    exact hdb
  obtain ⟨lay, hlay, hm, hps, hdim, hpos, hcl, -, -, ⟨h0, hel⟩, -⟩ := kvShard_shape hsh
  obtain ⟨height, _, _, _, _, hcol⟩ := C37_shared_geometry prof segExp cap0 fp0 filterSeed kvs m T b hb shard.db hdb
  have hrate := noise_rate_cols (T := T) (count := count) hb1 (cols := shard.db.entries) (m := shard.baseParams.m)
    (by rw [hel]; exact (hkv 0 h0).1)
    (by
      intro col hc
      refine ⟨by rw [hm]; exact hcl col hc, ?_⟩
      exact (hcol col hc).2.1) ev (fun t => ⟨_, hev t⟩)
  have hcard : (Fintype.card (Fin count → Fin shard.baseParams.m → Fin 4294967293) : ℝ) =
      ((4294967293 ^ shard.baseParams.m) ^ count : ℝ) := by
    rw [Fintype.card_fun, Fintype.card_fun, Fintype.card_fin, Fintype.card_fin, Fintype.card_fin, Nat.cast_pow, Nat.cast_pow]
    rfl
  rw [hcard]
  refine le_trans hrate (Nat.cast_le.2 (Finset.card_le_card ?_))
  intro t ht
  simp only [Finset.mem_filter, Finset.mem_univ, true_and] at ht ⊢
  obtain ⟨kvs', hl', hkv', -, hall⟩ := htest t
  have hkk : kvs' = kvs := by
    apply List.ext_getElem (by omega)
    intro i h1 h2
    have a := hkv' i h1
    have c := hkv i h2
    have hkey : kvs'[i].key = kvs[i].key := Res.ok.inj (a.1.symm.trans c.2.2.1)
    have hvalue : kvs'[i].value = kvs[i].value := a.2.trans c.2.2.2.symm
    cases h3 : kvs'[i]
    cases h4 : kvs[i]
    rw [h3, h4] at hkey hvalue
    simp only at hkey hvalue
    rw [hkey, hvalue]
  subst hkk
  refine ((hall shard hsh hload hdist s (fun i => if h : i < count then words (t ⟨i, h⟩) else [])
    (fun i => if h : i < count then ev (t ⟨i, h⟩) else []) (fun i => if h : i < count then rest (t ⟨i, h⟩) else [])
    (fun i hi => by
      simp only [Spec.testTapes, dif_pos hi]
      exact randomTernaryVector_append (hs i hi))
    (fun i hi => by simp only [dif_pos hi]; exact hev _)).1).2 ?_
  intro i hi
  simp only [dif_pos hi]
  exact ht ⟨i, hi⟩

open scoped Classical in
/-- **C110 (the keyword test as written).** 4096 pairs with 256-bit values, dimension 512, 11 plaintext bits. If the shard is
built and the key hashes differ, the test fails for fewer than one in `2^39` of the noise samples. -/
theorem C110_kv_test_passes (log : ℚ → ℚ) (hlog : LogAccurate log) (sha : Sha) (hsha : ∀ x, (sha x).length = 32) (prg : Prg)
    (utf8 : List Char → List U8) (ent : Nat → U8) (pseed : List U8) (fp0 : Nat → Nat → U32) (filterSeed : List U8) :
    ∃ kvs : List KeyValue, kvs.length = 4096 ∧
      (∀ i (hi : i < kvs.length),
        sha256IntoU64Sized sha (utf8 (b64Encode ((List.range 32).map fun k => ent (i * 64 + k)))) = .ok kvs[i].key ∧
        kvs[i].value = rowOf 11 24 ((List.range 32).map fun k => ent (i * 64 + 32 + k))) ∧
      ∀ shard, KVShard.new .debug prg pseed (bfSegExp log 4096) (bfCap0 log 4096) fp0 filterSeed kvs 512 4096 256 11 =
          .ok shard →
        (kvs.map fun kv => mix256 kv.key filterSeed).Nodup →
        ∀ ts s : Nat → List U32, (∀ i < 10, randomTernaryVector 512 (ts i) = .ok (s i, [])) →
          shard.baseParams.m = 5632 ∧
          2 ^ 39 * (univ.filter fun t : Fin 10 → Fin shard.baseParams.m → Fin 4294967293 =>
            ¬ testKv .debug sha prg utf8 ent pseed (bfSegExp log 4096) (bfCap0 log 4096) fp0 filterSeed (testTapes ts t)
              4096 512 256 11 10 = .ok ()).card < Fintype.card (Fin 10 → Fin shard.baseParams.m → Fin 4294967293) := by
  obtain ⟨kvs, hl, hkv, hall⟩ := C110_kv_rate .debug sha hsha prg utf8 ent pseed (bfSegExp log 4096) (bfCap0 log 4096) fp0
    filterSeed 4096 512 256 11 10 (by decide) (by decide) (by decide) (by decide)
  refine ⟨kvs, hl, fun i hi => hkv i hi, ?_⟩
  intro shard hsh hdist ts s hs
  have h := hall shard hsh (.inl rfl) hdist ts s hs
  obtain ⟨lay, hlay, hm, -⟩ := kvShard_shape hsh
  have hlay2 := layout_two_pow hlog 12 9 9 (by norm_num) (by norm_num) (by norm_num) (by norm_num) (by norm_num) (by norm_num)
      (by rw [max_eq_right (by norm_num)]; norm_num) (by rw [max_eq_right (by norm_num)]; norm_num) (by norm_num)
  rw [show (2 : Nat) ^ 12 = 4096 from rfl] at hlay2
  rw [hl, hlay2] at hlay
  have hm2 : shard.baseParams.m = 5632 := by
    rw [hm, ← Res.ok.inj hlay]
    rfl
  refine ⟨hm2, ?_⟩
  have hf : failureBound shard.baseParams.m 256 11 < 1 / 2 ^ 43 := by
    rw [hm2]
    exact failureBound_lt 24 34 (by decide) (by norm_num) (by norm_num) (by norm_num) (by norm_num)
  have hsum := Finset.card_filter_add_card_filter_not
    (s := (univ : Finset (Fin 10 → Fin shard.baseParams.m → Fin 4294967293)))
    (fun t => testKv .debug sha prg utf8 ent pseed (bfSegExp log 4096) (bfCap0 log 4096) fp0 filterSeed (testTapes ts t)
              4096 512 256 11 10 = .ok ())
  rw [Finset.card_univ] at hsum
  have hpos : 0 < Fintype.card (Fin 10 → Fin shard.baseParams.m → Fin 4294967293) := Fintype.card_pos
  generalize failureBound shard.baseParams.m 256 11 = x at *
  generalize Fintype.card (Fin 10 → Fin shard.baseParams.m → Fin 4294967293) = N at *
  generalize (univ.filter fun t : Fin 10 → Fin shard.baseParams.m → Fin 4294967293 =>
    testKv .debug sha prg utf8 ent pseed (bfSegExp log 4096) (bfCap0 log 4096) fp0 filterSeed (testTapes ts t)
      4096 512 256 11 10 = .ok ()).card = P at *
  generalize (univ.filter fun t : Fin 10 → Fin shard.baseParams.m → Fin 4294967293 =>
    ¬ testKv .debug sha prg utf8 ent pseed (bfSegExp log 4096) (bfCap0 log 4096) fp0 filterSeed (testTapes ts t)
      4096 512 256 11 10 = .ok ()).card = F at *
  have hsum' : (P : ℝ) + F = N := by exact_mod_cast hsum
  have hpos' : (0 : ℝ) < N := by exact_mod_cast hpos
  have h3 : (1 - 10 / 2 ^ 43 : ℝ) * N ≤ P := by
    refine le_trans ?_ h
    apply mul_le_mul_of_nonneg_right _ hpos'.le
    push_cast
    linarith
  have : (2 ^ 39 * F : ℝ) < N := by
    norm_num only at h3 ⊢
    linarith
  exact_mod_cast this
end Chalamet
