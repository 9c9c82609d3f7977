import Verif.Lemmas.Kv
import Verif.Lemmas.Respond
import Verif.Props.Codec

/-!
# Keyword retrieval: C04, C37, C39, C50, C51, C52

`filterSeed`, `fp0`, `pseed` and `tape` are all the randomness of the two parties; `segExp` and `cap0`
are the results of the floating-point size computations (see DESIGN.md).
-/

namespace Chalamet
open Spec

/-! ## C37 -/

/-- **C37.** Every column of a key-value database is the published content of a filter built with the
published seed and having the published geometry, all columns have the same height, and the three slots
of every key (stored or not) computed from the published parameters are below that height: one query
serves all columns. Every entry is below `2^b`. -/
theorem C37_shared_geometry (prof : Profile) (segExp cap0 : Nat) (fp0 : Nat → Nat → U32)
    (filterSeed : List U8) (kvs : List KeyValue) (m T b : Nat) (hb : b ≤ 31) (db : KVDatabase)
    (h : KVDatabase.new prof segExp cap0 fp0 filterSeed kvs m T b = .ok db) :
    ∃ height, 0 < height ∧ db.filterParams.seed = filterSeed ∧
      db.entries.length = (kvs.head?.map fun kv => kv.value.length).getD 0 ∧
      (∀ key, ∃ i j k, db.filterParams.getHashEvals prof key = .ok [i, j, k] ∧ i < height ∧ j < height ∧
        k < height ∧ i ≠ j ∧ i ≠ k ∧ j ≠ k) ∧
      ∀ col ∈ db.entries, col.length = height ∧ (∀ x ∈ col, x.toNat < 2 ^ b) ∧
        ∃ f : BinaryFuseP32, f.getFingerprintsMod = .ok col ∧ f.seed = db.filterParams.seed ∧
          f.geom = db.filterParams.geom ∧ f.fingerprints.length = height := by
  obtain ⟨lay, p, w, h0, hwv, hw0, hlay, hp, hfp, hdm, hdT, hdb', hel, hcols⟩ := kvNew_ok h
  have hpv := pow2U64_val hb hp
  have hseed : filterSeed.length = 32 := by
    obtain ⟨_, _, _, _, h, _⟩ := hcols 0 (by omega)
    exact fromSlice_seed (by simpa using h0) h
  have hev := fun key => getHashEvals_ok prof hlay (fp := db.filterParams) (by rw [hfp])
    (by rw [hfp]; exact hseed) key
  refine ⟨lay.arrayLen, ?_, by rw [hfp], ?_, hev, ?_⟩
  · obtain ⟨i, j, k, _, h, _⟩ := hev []
    omega
  · rw [hel, hwv]
    cases kvs with
    | nil => simp at h0
    | cons a l => simp
  · intro col hc
    obtain ⟨j, hj, rfl⟩ := List.getElem_of_mem hc
    obtain ⟨data, f, d1, d2, d3, d4, d5, d6, d7, d8⟩ := hcols j hj
    refine ⟨d8, ?_, f, d7, by rw [d5, hfp], by rw [d4, hfp], d6⟩
    obtain ⟨_, lay', s', _, _, _, _, _, hpm⟩ := fromSlice_wf d3
    exact published_lt hb (by rw [hpm]; exact hpv) d7

/-! ## C04 -/

/-- **C04.** Keyword retrieval. Take any shard successfully built from key/value pairs whose values have
one word per column, and any fresh query parameters. For a stored key whose hash differs from that of
every later stored key: the query succeeds, the response parses, and digit `j` of the parsed row is the
stored value modulo `2^b` exactly when the noise `<e, column j>` of the ternary error vector `e` drawn by
the client is in the window. (In release builds no slot may carry 64 or more keys.) -/
theorem C04_kv_pir (prof : Profile) (prg : Prg) (pseed : List U8) (segExp cap0 : Nat)
    (fp0 : Nat → Nat → U32) (filterSeed : List U8) (kvs : List KeyValue) (n m T b : Nat)
    (shard : KVShard) (hb1 : 1 ≤ b) (hb : b ≤ 31) (hT : T < 2 ^ 64)
    (hsh : KVShard.new prof prg pseed segExp cap0 fp0 filterSeed kvs n m T b = .ok shard)
    (hw : ∀ kv ∈ kvs, kv.value.length = width T b)
    (hload : prof = .debug ∨
      ∀ s, slotLoad filterSeed shard.db.filterParams.geom (kvs.map (·.key)) s < 64)
    (tape tape' : List U32) (qp : QueryParams FilterParams)
    (hgen : generateKvQueryParams (commonParamsFrom prg shard.baseParams.publicSeed
      shard.baseParams.dim shard.baseParams.m) shard.baseParams tape = .ok (qp, tape')) :
    ∃ s t1 e, randomTernaryVector n tape = .ok (s, t1) ∧
      randomTernaryVector shard.baseParams.m t1 = .ok (e, tape') ∧
      shard.db.entries.length = width T b ∧
      ∀ i (hi : i < kvs.length),
        (∀ k (hk : k < kvs.length), i < k →
          mix256 kvs[k].key filterSeed ≠ mix256 kvs[i].key filterSeed) →
        ∃ qp' q bytes resp row, qp.generateKvQuery prof kvs[i].key = (qp', .ok q) ∧
          shard.respond q = .ok bytes ∧ bincodeDeserialize bytes = .ok resp ∧
          qp'.parseKvRow prof resp kvs[i].key = .ok row ∧ row.length = width T b ∧
          (∀ j (hj : j < shard.db.entries.length) (hv : j < kvs[i].value.length),
            row[j]? = some (BitVec.ofNat 32 (kvs[i].value[j].toNat % 2 ^ b)) ↔
              InWindow b (dot e shard.db.entries[j])) ∧
          (row = kvs[i].value.map (fun v => BitVec.ofNat 32 (v.toNat % 2 ^ b)) ↔
            ∀ col ∈ shard.db.entries, InWindow b (dot e col)) := by
  have hnew := hsh
  unfold KVShard.new at hnew
  obtain ⟨db, hdb, hnew⟩ := Res.bind_eq_ok.1 hnew
  obtain ⟨bp, hbp, hnew⟩ := Res.bind_eq_ok.1 hnew
  have hsdb : shard.db = db := by cases hnew; rfl
  obtain ⟨lay, p, w, h0, hwv, hw0, hlay, hp, hfp, hdm, hdT, hdb', hel, hcols⟩ := kvNew_ok hdb
  have hent : shard.db.entries.length = width T b := by
    rw [hsdb, hel, hwv, hw _ (List.getElem_mem h0)]
  have hpv := pow2U64_val hb hp
  obtain ⟨s, t1, e, hs, he, hall⟩ := kv_exchange hb1 hb hsh (le_of_eq hent.symm) hgen
  refine ⟨s, t1, e, hs, he, hent, ?_⟩
  intro i hi hlast
  obtain ⟨q, resp, row, hq, hans, hparse, hrl, hrow⟩ := hall kvs[i].key
  have hresp : resp.length = width T b := by
    unfold KVShard.answer KVDatabase.getRowWidthSelf at hans
    rw [hsdb, hdT, hdb', getRowWidth_ok (by omega), Res.bind_ok] at hans
    rw [mapRes_length hans, List.length_range]; rfl
  have hwT : width T b < 2 ^ 64 := by
    unfold width
    rcases Nat.lt_or_ge 1 b with h | h
    · have h2 : (T + b - 1) / b ≤ (T + b - 1) / 2 := Nat.div_le_div_left (by omega) (by omega)
      omega
    · have : b = 1 := by omega
      subst this
      simpa using hT
  have hpt : ∀ j (hj : j < shard.db.entries.length) (hv : j < kvs[i].value.length),
      row[j]? = some (BitVec.ofNat 32 (kvs[i].value[j].toNat % 2 ^ b)) ↔
        InWindow b (dot e shard.db.entries[j]) := by
    intro j hj hv
    obtain ⟨p', data, f, r, hp', hcol, hret, hrlt, hval⟩ := hrow j (by omega) (by omega)
    rw [hp] at hp'
    cases hp'
    have hd := hcol.dataLen
    obtain ⟨_, hdv⟩ := hcol.dataVal i hi (by omega)
    have hgeom : f.geom = shard.db.filterParams.geom := by
      obtain ⟨_, lay', _, hlay', hg, _⟩ := fromSlice_wf hcol.built
      rw [List.length_map] at hlay'
      rw [hlay] at hlay'
      cases hlay'
      rw [hg, hsdb, hfp]
    obtain ⟨x, hx, hxv⟩ := C28_retrieve prof segExp cap0 (fp0 j) filterSeed (kvs.map (·.key)) data
      (BitVec.ofNat 64 j) p f (fromSlice_fromVec hcol.built)
      (by rw [hpv]; exact Nat.pow_dvd_pow 2 (by omega))
      (by rw [hpv]; exact Nat.pow_lt_pow_right (by omega) (by omega))
      (by rw [hgeom]; exact hload) i i (by simpa using hi) (by simpa using hi) (by omega) rfl
      (by
        intro k hk hik
        simpa using hlast k (by simpa using hk) hik)
    rw [List.getElem_map] at hx
    have hrx := hret.symm.trans hx
    simp only [Res.ok.injEq] at hrx
    subst hrx
    rw [hpv, hdv] at hxv
    rw [List.getElem?_eq_getElem (by omega), hval, Option.some.injEq, ← hxv, ← carry_window hb1 hb,
      ← add_mod_eq_left hrlt]
    have h2 : 2 ^ b < 2 ^ 32 := Nat.pow_lt_pow_right (by omega) (by omega)
    have h3 := Nat.mod_lt (r.toNat + carry b (dot e shard.db.entries[j])) (Nat.two_pow_pos b)
    constructor
    · intro h
      have := congrArg BitVec.toNat h
      rwa [BitVec.toNat_ofNat, BitVec.toNat_ofNat, Nat.mod_eq_of_lt (by omega),
        Nat.mod_eq_of_lt (a := r.toNat) (by omega)] at this
    · intro h; rw [h]
  refine ⟨_, q, bincodeSerialize resp, resp, row, hq, ?_, ?_, hparse, hrl, hpt, ?_⟩
  · rw [KVShard.respond, hans]; rfl
  · have := bincodeDeserialize_serialize resp [] (by rw [hresp]; exact hwT)
    simpa using this
  · have hvl := hw _ (List.getElem_mem hi)
    constructor
    · intro h col hc
      obtain ⟨j, hj, rfl⟩ := List.getElem_of_mem hc
      have hj' : j < kvs[i].value.length := by omega
      have := congrArg (fun l => l[j]?) h
      apply (hpt j hj hj').1
      simpa [hj'] using this
    · intro h
      apply List.ext_getElem?
      intro j
      by_cases hj : j < shard.db.entries.length
      · rw [(hpt j hj (by omega)).2 (h _ (List.getElem_mem hj))]
        simp [show j < kvs[i].value.length by omega]
      · rw [List.getElem?_eq_none (by omega), List.getElem?_eq_none (by simp; omega)]

/-- **C04 (worst case).** If (matrix height) times `2^b - 1` is below `2^(31-b)`, keyword retrieval is
correct for every tape. -/
theorem C04_worst_case (prof : Profile) (prg : Prg) (pseed : List U8) (segExp cap0 : Nat)
    (fp0 : Nat → Nat → U32) (filterSeed : List U8) (kvs : List KeyValue) (n m T b : Nat)
    (shard : KVShard) (hb1 : 1 ≤ b) (hb : b ≤ 31) (hT : T < 2 ^ 64)
    (hsh : KVShard.new prof prg pseed segExp cap0 fp0 filterSeed kvs n m T b = .ok shard)
    (hw : ∀ kv ∈ kvs, kv.value.length = width T b)
    (hload : prof = .debug ∨
      ∀ s, slotLoad filterSeed shard.db.filterParams.geom (kvs.map (·.key)) s < 64)
    (hbound : shard.baseParams.m * (2 ^ b - 1) < 2 ^ (31 - b))
    (tape tape' : List U32) (qp : QueryParams FilterParams)
    (hgen : generateKvQueryParams (commonParamsFrom prg shard.baseParams.publicSeed
      shard.baseParams.dim shard.baseParams.m) shard.baseParams tape = .ok (qp, tape'))
    (i : Nat) (hi : i < kvs.length)
    (hlast : ∀ k (hk : k < kvs.length), i < k →
      mix256 kvs[k].key filterSeed ≠ mix256 kvs[i].key filterSeed) :
    ∃ qp' q bytes resp, qp.generateKvQuery prof kvs[i].key = (qp', .ok q) ∧
      shard.respond q = .ok bytes ∧ bincodeDeserialize bytes = .ok resp ∧
      qp'.parseKvRow prof resp kvs[i].key =
        .ok (kvs[i].value.map fun v => BitVec.ofNat 32 (v.toNat % 2 ^ b)) := by
  obtain ⟨s, t1, e, hs, he, hent, hall⟩ := C04_kv_pir prof prg pseed segExp cap0 fp0 filterSeed kvs n m
    T b shard hb1 hb hT hsh hw hload tape tape' qp hgen
  obtain ⟨qp', q, bytes, resp, row, h1, h2, h3, h4, _, _, h6⟩ := hall i hi hlast
  refine ⟨qp', q, bytes, resp, h1, h2, h3, ?_⟩
  rw [h4, h6.2]
  intro col hc
  have hdb : KVDatabase.new prof segExp cap0 fp0 filterSeed kvs m T b = .ok shard.db := by
    unfold KVShard.new at hsh
    obtain ⟨db, hdb, hnew⟩ := Res.bind_eq_ok.1 hsh
    obtain ⟨bp, hbp, hnew⟩ := Res.bind_eq_ok.1 hnew
    cases hnew
    exact hdb
  obtain ⟨height, _, _, _, _, hcol⟩ := C37_shared_geometry prof segExp cap0 fp0 filterSeed kvs m T b hb
    shard.db hdb
  have hsp := randomTernaryVector_spec he
  refine noise_inWindow hb1 hb hsp.2 (hcol col hc).2.1 ?_
  have h4 : weight e ≤ shard.baseParams.m := hsp.1 ▸ weight_le e
  exact lt_of_le_of_lt (Nat.mul_le_mul_right _ h4) hbound

/-! ## C39 -/

/-- **C39.** For *every* key, stored or not, a fresh query succeeds, the response is produced, and
parsing gives a row of `width` digits below `2^b`: nothing in the API's results signals absence. -/
theorem C39_absent_keys (prof : Profile) (prg : Prg) (pseed : List U8) (segExp cap0 : Nat)
    (fp0 : Nat → Nat → U32) (filterSeed : List U8) (kvs : List KeyValue) (n m T b : Nat)
    (shard : KVShard) (hb1 : 1 ≤ b) (hb : b ≤ 31) (hT : T < 2 ^ 64)
    (hsh : KVShard.new prof prg pseed segExp cap0 fp0 filterSeed kvs n m T b = .ok shard)
    (hw : width T b ≤ shard.db.entries.length)
    (tape tape' : List U32) (qp : QueryParams FilterParams)
    (hgen : generateKvQueryParams (commonParamsFrom prg shard.baseParams.publicSeed
      shard.baseParams.dim shard.baseParams.m) shard.baseParams tape = .ok (qp, tape'))
    (key : Key) :
    ∃ qp' q bytes resp row, qp.generateKvQuery prof key = (qp', .ok q) ∧
      shard.respond q = .ok bytes ∧ bincodeDeserialize bytes = .ok resp ∧
      qp'.parseKvRow prof resp key = .ok row ∧ row.length = width T b ∧
      ∀ x ∈ row, x.toNat < 2 ^ b := by
  obtain ⟨s, t1, e, hs, he, hall⟩ := kv_exchange hb1 hb hsh hw hgen
  obtain ⟨q, resp, row, hq, hans, hparse, hrl, hrow⟩ := hall key
  obtain ⟨bytes, hresp, hdes⟩ := kvShard_respond_bytes (by rw [kvShard_elemSize hsh]; exact hT) hans
  refine ⟨_, q, bytes, resp, row, hq, hresp, hdes, hparse, hrl, ?_⟩
  intro x hx
  obtain ⟨j, hj, rfl⟩ := List.getElem_of_mem hx
  obtain ⟨_, _, _, r, _, _, _, _, hval⟩ := hrow j (by omega) hj
  rw [hval, BitVec.toNat_ofNat]
  exact lt_of_le_of_lt (Nat.mod_le _ _) (Nat.mod_lt _ (Nat.two_pow_pos b))

end Chalamet
