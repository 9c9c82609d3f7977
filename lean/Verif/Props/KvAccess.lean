import Verif.Props.KvServer
import Verif.Lemmas.Respond

/-!
# C90 and C39 for key-value databases: what the stored columns are, and what a client gets for any key
-/

namespace Chalamet

open Spec

theorem kvShard_db {prof : Profile} {prg : Prg} {pseed : List U8} {segExp cap0 : Nat}
    {fp0 : Nat → Nat → U32} {seed : List U8} {kvs : List KeyValue} {n m T b : Nat} {shard : KVShard}
    (hsh : KVShard.new prof prg pseed segExp cap0 fp0 seed kvs n m T b = .ok shard) :
    KVDatabase.new prof segExp cap0 fp0 seed kvs m T b = .ok shard.db ∧
      shard.baseParams.filterParams = shard.db.filterParams := by
  unfold KVShard.new at hsh
  obtain ⟨db, hdb, hnew⟩ := Res.bind_eq_ok.1 hsh
  obtain ⟨bp, hbp, hnew⟩ := Res.bind_eq_ok.1 hnew
  cases hnew
  refine ⟨hdb, ?_⟩
  unfold KVParams.new at hbp
  obtain ⟨rhs, hr, hbp⟩ := Res.bind_eq_ok.1 hbp
  obtain ⟨h, hh, hbp⟩ := Res.bind_eq_ok.1 hbp
  cases hbp
  rfl

/-- **C90 (keywords).** In a built key-value shard `get_row(j)` is column `j`, whose length is the published number of records
and the matrix height, and panics from the number of columns on; `vec_mult` panics on a vector of another length or a column
index out of range and otherwise is the inner product; `get_db_entry(i)` panics from the height on; `switch_fmt` makes
`get_row(i)` the `i`-th cells of all columns, and undoes itself. -/
theorem C90_kv_access (prof : Profile) (prg : Prg) (pseed : List U8) (segExp cap0 : Nat)
    (fp0 : Nat → Nat → U32) (seed : List U8) (kvs : List KeyValue) (n m T b : Nat) (shard : KVShard)
    (hsh : KVShard.new prof prg pseed segExp cap0 fp0 seed kvs n m T b = .ok shard) :
    shard.db.getMatrixHeight = .ok shard.baseParams.m ∧
    ∃ cols : List (List U32), (∃ h0 : 0 < kvs.length, cols.length = kvs[0].value.length) ∧ 0 < cols.length ∧
      (∀ c ∈ cols, c.length = shard.baseParams.m) ∧
      (∀ j, shard.db.getRow j = if h : j < cols.length then .ok cols[j] else .panic) ∧
      (∀ i, shard.baseParams.m ≤ i → shard.db.getDbEntry prof i = .panic) ∧
      (∀ v j, shard.db.vecMult v j =
        if h : j < cols.length then (if v.length = shard.baseParams.m then .ok (dot v cols[j]) else .panic) else .panic) ∧
      ∃ db', shard.db.switchFmt = .ok db' ∧
        (∀ i, db'.getRow i =
          if i < shard.baseParams.m then .ok (cols.map fun c => c.getD i 0#32) else .panic) ∧
        db'.switchFmt = .ok shard.db := by
  obtain ⟨lay, hlay, hm, _, _, he, hcl, hT, hb, hk, _⟩ := kvShard_shape hsh
  rw [hm]
  have hN : 0 < lay.arrayLen := by
    obtain ⟨s, _, hw⟩ := bfLayout_wf hlay
    have := (hashOfHash_lt hw 0#64).1
    omega
  have hrow : ∀ j, rd shard.db.entries j = if h : j < shard.db.entries.length then .ok shard.db.entries[j] else .panic := by
    intro j
    split_ifs with hj
    · exact rd_ok hj
    · exact rd_panic (by omega)
  refine ⟨?_, shard.db.entries, hk, he, hcl, hrow, ?_, ?_, ?_⟩
  · unfold KVDatabase.getMatrixHeight
    rw [rd_ok he, Res.bind_ok, hcl _ (List.getElem_mem he)]
  · intro i hi
    unfold KVDatabase.getDbEntry getMatrixSecondAt
    obtain ⟨c, l, hcons⟩ : ∃ c l, shard.db.entries = c :: l := by
      cases hh : shard.db.entries with
      | nil => rw [hh] at he; simp at he
      | cons c l => exact ⟨c, l, rfl⟩
    have := hcl c (by rw [hcons]; simp)
    rw [hcons, mapRes_cons, rd_panic (by omega)]
    rfl
  · intro v j
    unfold KVDatabase.vecMult
    rw [hrow]
    by_cases hj : j < shard.db.entries.length
    · rw [dif_pos hj, dif_pos hj, Res.bind_ok]
      have hc := hcl _ (List.getElem_mem hj)
      by_cases hv : v.length = lay.arrayLen
      · rw [if_pos hv, vecMult_ok (by omega)]
        rfl
      · rw [if_neg hv]
        unfold vecMult
        rw [if_pos (by omega)]
        rfl
    · rw [dif_neg hj, dif_neg hj]
      rfl
  · obtain ⟨N, hNs, hNl, hNr, hNc, hback, -⟩ := C23_transpose _ _ lay.arrayLen he hN rfl hcl
    refine ⟨{ shard.db with entries := N }, by
      unfold KVDatabase.switchFmt; rw [hNs]; rfl, ?_, by
      unfold KVDatabase.switchFmt; simp only; rw [hback]; rfl⟩
    intro i
    unfold KVDatabase.getRow
    simp only
    split_ifs with hi
    · rw [rd_ok (by omega)]
      congr 1
      have hNi := hNr _ (List.getElem_mem (show i < N.length by omega))
      apply List.ext_getElem (by simp [hNi])
      intro j h1 h2
      have hj : j < shard.db.entries.length := by omega
      have := hNc j hj i hi
      rw [getD_lt (l := N) (by omega), getD_lt h1, getD_lt hj] at this
      rw [this, List.getElem_map]
    · exact rd_panic (by omega)

/-- What the published parameters and one stored column say about a key: the sum of the three cells at the key's slots and the
key's fingerprint for that column, modulo `2^b`. -/
def Spec.CellValue (prof : Profile) (fp : FilterParams) (b : Nat) (key : Key) (j : Nat) (col : List U32) (v : Nat) : Prop :=
  ∃ (i₁ i₂ i₃ : Nat) (fpr : U64), fp.getHashEvals prof key = .ok [i₁, i₂, i₃] ∧ i₁ < col.length ∧ i₂ < col.length ∧
    i₃ < col.length ∧ BinaryFuseP32.getKeyFingerprint key fp.seed (BitVec.ofNat 64 j) = .ok fpr ∧
    v = ((col.getD i₁ 0#32).toNat + (col.getD i₂ 0#32).toNat + (col.getD i₃ 0#32).toNat + fpr.toNat) % 2 ^ b

/-- Of a column that is a filter's published content, the key's cells say what the filter retrieves. -/
theorem cellValue_of_column {prof : Profile} {segExp cap0 : Nat} {fp0 : Nat → Nat → U32} {seed : List U8} {kvs : List KeyValue}
    {m T b : Nat} {db : KVDatabase} (hb : b ≤ 31) (h : KVDatabase.new prof segExp cap0 fp0 seed kvs m T b = .ok db)
    {j : Nat} (hj : j < db.entries.length) {p : U64} {data : List U32} {f : BinaryFuseP32}
    (hp : pow2U64 prof b = .ok p)
    (hcol : IsColumn prof segExp cap0 fp0 seed kvs p j data f db.entries[j]) (key : Key) (r : U32)
    (hret : f.retrieve key (BitVec.ofNat 64 j) = .ok r) :
    CellValue prof db.filterParams b key j db.entries[j] r.toNat := by
  obtain ⟨lay, p', w, h0, hwv, hw0, hlay, hp', hfp, hdm, hdT, hdb', hel, hcols⟩ := kvNew_ok h
  have hpv := pow2U64_val hb hp
  have hseed : seed.length = 32 := by
    obtain ⟨_, _, _, _, h, _⟩ := hcols 0 (by omega)
    exact fromSlice_seed (by simpa using h0) h
  obtain ⟨col, i₁, i₂, i₃, x, y, z, fpr, r', hc, hcl, hev, hx, hy, hz, hfpr, hr, hv⟩ := C36_unmask prof segExp cap0 (fp0 j) seed (kvs.map (·.key)) data
    (BitVec.ofNat 64 j) p f (fromSlice_fromVec hcol.built) b hb hpv hseed key (BitVec.ofNat 64 j)
  have hgs : f.geom = db.filterParams.geom ∧ f.seed = db.filterParams.seed := by
    obtain ⟨_, lay', _, hlay', hg, _, _, hs, _⟩ := fromSlice_wf hcol.built
    rw [List.length_map, hlay] at hlay'
    cases hlay'
    rw [hfp]
    exact ⟨hg, hs⟩
  have e1 := hc.symm.trans hcol.published
  simp only [Res.ok.injEq] at e1
  have e2 := hr.symm.trans hret
  simp only [Res.ok.injEq] at e2
  subst e2
  rw [← e1]
  obtain ⟨l1, rfl⟩ := List.getElem?_eq_some_iff.1 hx
  obtain ⟨l2, rfl⟩ := List.getElem?_eq_some_iff.1 hy
  obtain ⟨l3, rfl⟩ := List.getElem?_eq_some_iff.1 hz
  rw [hgs.1, hgs.2] at hev
  rw [hgs.2] at hfpr
  exact ⟨i₁, i₂, i₃, fpr, hev, l1, l2, l3, hfpr, by rw [getD_lt l1, getD_lt l2, getD_lt l3, hv]⟩

/-- **C90 (local lookup).** Whoever has the published parameters and the columns of a built shard (`get_row`) can look a stored
key up without any query: the three cells at its slots and its fingerprint add up to the stored value modulo `2^b`. (The key
hashes differently from every later one; in release builds no slot carries 64 or more keys.) -/
theorem C90_kv_local_lookup (prof : Profile) (prg : Prg) (pseed : List U8) (segExp cap0 : Nat)
    (fp0 : Nat → Nat → U32) (seed : List U8) (kvs : List KeyValue) (n m T b : Nat) (hb : b ≤ 31) (shard : KVShard)
    (hsh : KVShard.new prof prg pseed segExp cap0 fp0 seed kvs n m T b = .ok shard)
    (hload : prof = .debug ∨ ∀ s, slotLoad seed shard.baseParams.filterParams.geom (kvs.map (·.key)) s < 64)
    (i : Nat) (hi : i < kvs.length)
    (hlast : ∀ k (hk : k < kvs.length), i < k → mix256 kvs[k].key seed ≠ mix256 kvs[i].key seed)
    (j : Nat) (hj : j < kvs[0].value.length) :
    ∃ (col : List U32) (hv : j < kvs[i].value.length), shard.db.getRow j = .ok col ∧
      CellValue prof shard.baseParams.filterParams b kvs[i].key j col (kvs[i].value[j].toNat % 2 ^ b) := by
  obtain ⟨hdb, hfpe⟩ := kvShard_db hsh
  obtain ⟨lay, p, w, h0, hwv, hw0, hlay, hp, hfp, hdm, hdT, hdb', hel, hcols⟩ := kvNew_ok hdb
  have hpv := pow2U64_val hb hp
  have hj' : j < shard.db.entries.length := by omega
  obtain ⟨data, f, d1, d2, d3, d4, d5, d6, d7, d8⟩ := hcols j hj'
  obtain ⟨hv, hdv⟩ := d2 i hi (by omega)
  refine ⟨shard.db.entries[j], hv, rd_ok hj', ?_⟩
  obtain ⟨x, hx, hxv⟩ := C28_retrieve prof segExp cap0 (fp0 j) seed (kvs.map (·.key)) data
    (BitVec.ofNat 64 j) p f (fromSlice_fromVec d3)
    (by rw [hpv]; exact Nat.pow_dvd_pow 2 (by omega))
    (by rw [hpv]; exact Nat.pow_lt_pow_right (by omega) (by omega))
    (by rw [d4]; rw [hfpe, hfp] at hload; exact hload) i i (by simpa using hi) (by simpa using hi) (by omega) rfl
    (by
      intro k hk hik
      simpa using hlast k (by simpa using hk) hik)
  rw [List.getElem_map] at hx
  have := cellValue_of_column hb hdb hj' hp ⟨d1, d2, d3, d7⟩ _ x hx
  rw [hxv, hpv, hdv] at this
  rw [hfpe]
  exact this

/-- **C39 (value).** What a client is told about *any* key, stored or not: digit `j` of the parsed row is what the cells of
column `j` say about the key, exactly when the noise on that column is in the window. -/
theorem C39_row_value (prof : Profile) (prg : Prg) (pseed : List U8) (segExp cap0 : Nat)
    (fp0 : Nat → Nat → U32) (seed : List U8) (kvs : List KeyValue) (n m T b : Nat)
    (shard : KVShard) (hb1 : 1 ≤ b) (hb : b ≤ 31) (hT : T < 2 ^ 64)
    (hsh : KVShard.new prof prg pseed segExp cap0 fp0 seed kvs n m T b = .ok shard)
    (hw : width T b ≤ shard.db.entries.length)
    (tape tape' : List U32) (qp : QueryParams FilterParams)
    (hgen : generateKvQueryParams (commonParamsFrom prg shard.baseParams.publicSeed
      shard.baseParams.dim shard.baseParams.m) shard.baseParams tape = .ok (qp, tape')) :
    ∃ s t1 e, randomTernaryVector n tape = .ok (s, t1) ∧ randomTernaryVector shard.baseParams.m t1 = .ok (e, tape') ∧
      ∀ key, ∃ qp' q bytes resp row, qp.generateKvQuery prof key = (qp', .ok q) ∧
      shard.respond q = .ok bytes ∧ bincodeDeserialize bytes = .ok resp ∧
        qp'.parseKvRow prof resp key = .ok row ∧ row.length = width T b ∧
        ∀ j (hj : j < row.length), ∃ col v, shard.db.getRow j = .ok col ∧
          CellValue prof shard.baseParams.filterParams b key j col v ∧ (row[j].toNat = v ↔ InWindow b (dot e col)) := by
  obtain ⟨s, t1, e, hs, he, hall⟩ := kv_exchange hb1 hb hsh hw hgen
  refine ⟨s, t1, e, hs, he, ?_⟩
  intro key
  obtain ⟨q, resp, row, hq, hans, hparse, hrl, hrow⟩ := hall key
  obtain ⟨bytes, hresp, hdes⟩ := kvShard_respond_bytes (by rw [kvShard_elemSize hsh]; exact hT) hans
  refine ⟨_, q, bytes, resp, row, hq, hresp, hdes, hparse, hrl, ?_⟩
  intro j hj
  obtain ⟨hdb, hfpe⟩ := kvShard_db hsh
  obtain ⟨p, data, f, r, hp, hcol, hret, hrlt, hval⟩ := hrow j (by omega) hj
  have hj' : j < shard.db.entries.length := by omega
  refine ⟨shard.db.entries[j], r.toNat, rd_ok hj', ?_, ?_⟩
  · rw [hfpe]
    exact cellValue_of_column hb hdb hj' hp hcol key r hret
  · have h2 : 2 ^ b < 2 ^ 32 := Nat.pow_lt_pow_right (by omega) (by omega)
    have h3 := Nat.mod_lt (r.toNat + carry b (dot e shard.db.entries[j])) (Nat.two_pow_pos b)
    rw [hval, BitVec.toNat_ofNat, Nat.mod_eq_of_lt (by omega), ← carry_window hb1 hb]
    exact add_mod_eq_left hrlt

end Chalamet
