import Verif.Lemmas.Noise
import Verif.Props.KvQuery

/-! Key-value databases and the keyword exchange (helper lemmas). -/

namespace Chalamet
open Spec

theorem fromSlice_wf {prof : Profile} {segExp cap0 : Nat} {fp0 : Nat → U32} {seed : List U8}
    {keys : List Key} {data : List U32} {label ptxtMod : U64} {f : BinaryFuseP32}
    (h : BinaryFuseP32.fromSlice prof segExp cap0 fp0 seed keys data label ptxtMod = .ok f) :
    data.length = keys.length ∧
    ∃ lay s, bfLayout keys.length segExp cap0 = .ok lay ∧ f.geom = lay.geom ∧
      f.fingerprints.length = lay.arrayLen ∧ f.geom.WF f.fingerprints.length s lay.segmentCount ∧
      f.seed = seed ∧ f.ptxtMod = ptxtMod := by
  unfold BinaryFuseP32.fromSlice at h
  split at h
  · cases h
  · rename_i hd
    exact ⟨by omega, bfp_wf h⟩

theorem unwrap_eq_ok {α : Type} {x : Res α} {a : α} (h : x.unwrap = .ok a) : x = .ok a := by
  cases x <;> simp_all [Res.unwrap]

theorem rd_eq_ok' {α : Type} {l : List α} {i : Nat} {a : α} (h : rd l i = .ok a) :
    ∃ hi : i < l.length, l[i] = a := by
  rw [rd_eq_ok] at h
  exact List.getElem?_eq_some_iff.1 h

theorem mapRes_getElem {α β : Type} {f : α → Res β} {l : List α} {bs : List β}
    (h : mapRes f l = .ok bs) {i : Nat} (hi : i < l.length) (hb : i < bs.length) :
    f l[i] = .ok bs[i] := by
  have := mapRes_getElem? h i
  rw [List.getElem?_eq_getElem hi, List.getElem?_eq_getElem hb] at this
  simpa using this

/-- Anatomy of a key-value database. -/
theorem kvNew_ok {prof : Profile} {segExp cap0 : Nat} {fp0 : Nat → Nat → U32} {seed : List U8}
    {kvs : List KeyValue} {m T b : Nat} {db : KVDatabase}
    (h : KVDatabase.new prof segExp cap0 fp0 seed kvs m T b = .ok db) :
    ∃ (lay : Layout) (p : U64) (w : Nat) (h0 : 0 < kvs.length), w = kvs[0].value.length ∧ 0 < w ∧
      bfLayout kvs.length segExp cap0 = .ok lay ∧ pow2U64 prof b = .ok p ∧
      db.filterParams = { seed := seed, geom := lay.geom } ∧ db.m = m ∧ db.elemSize = T ∧
      db.plaintextBits = b ∧ db.entries.length = w ∧
      ∀ j (hj : j < db.entries.length), ∃ (data : List U32) (f : BinaryFuseP32),
        data.length = kvs.length ∧
        (∀ i (hi : i < kvs.length) (hd : i < data.length),
          ∃ hv : j < kvs[i].value.length, data[i] = kvs[i].value[j]) ∧
        BinaryFuseP32.fromSlice prof segExp cap0 (fp0 j) seed (kvs.map (·.key)) data
          (BitVec.ofNat 64 j) p = .ok f ∧
        f.geom = lay.geom ∧ f.seed = seed ∧ f.fingerprints.length = lay.arrayLen ∧
        f.getFingerprintsMod = .ok db.entries[j] ∧ db.entries[j].length = lay.arrayLen := by
  unfold KVDatabase.new at h
  obtain ⟨kv0, h1, h⟩ := Res.bind_eq_ok.1 h
  obtain ⟨⟨filters, geom⟩, h2, h⟩ := Res.bind_eq_ok.1 h
  obtain ⟨columns, h3, h⟩ := Res.bind_eq_ok.1 h
  cases h
  obtain ⟨h0, rfl⟩ := rd_eq_ok' h1
  unfold storageFiltersFromKvs at h2
  obtain ⟨filters', h4, h2⟩ := Res.bind_eq_ok.1 h2
  obtain ⟨f0, h5, h2⟩ := Res.bind_eq_ok.1 h2
  cases h2
  obtain ⟨hf0, rfl⟩ := rd_eq_ok' h5
  have hfl := mapRes_length h4
  have hcl := mapRes_length h3
  rw [List.length_range] at hfl
  have hcol : ∀ j (hj : j < filters.length), ∃ (data : List U32) (p : U64),
      mapRes (fun kv => rd kv.value j) kvs = .ok data ∧ pow2U64 prof b = .ok p ∧
      BinaryFuseP32.fromSlice prof segExp cap0 (fp0 j) seed (kvs.map (·.key)) data
          (BitVec.ofNat 64 j) p = .ok filters[j] := by
    intro j hj
    have e := mapRes_getElem h4 (i := j) (by simpa using (by omega : j < kvs[0].value.length)) hj
    rw [List.getElem_range] at e
    unfold columnFilter at e
    obtain ⟨data, e1, e⟩ := Res.bind_eq_ok.1 e
    obtain ⟨p, e2, e⟩ := Res.bind_eq_ok.1 e
    exact ⟨data, p, e1, e2, unwrap_eq_ok e⟩
  obtain ⟨data0, p, _, hp, hF0⟩ := hcol 0 hf0
  obtain ⟨_, lay, s, hlay, hg0, _⟩ := fromSlice_wf hF0
  rw [List.length_map] at hlay
  refine ⟨lay, p, kvs[0].value.length, h0, rfl, by omega, hlay, hp, by rw [hg0], rfl, rfl, rfl,
    by simp only; omega, ?_⟩
  intro j hj
  simp only at hj
  obtain ⟨data, p', e1, e2, e3⟩ := hcol j (by omega)
  rw [hp] at e2
  cases e2
  obtain ⟨hdl, lay', s', hlay', hg, hl, _, hs, _⟩ := fromSlice_wf e3
  rw [List.length_map] at hlay' hdl
  rw [hlay] at hlay'
  cases hlay'
  have hm := mapRes_getElem h3 (i := j) (by omega) hj
  refine ⟨data, _, hdl, ?_, e3, hg, hs, hl, hm, ?_⟩
  · intro i hi hd
    exact rd_eq_ok' (mapRes_getElem e1 hi hd) |>.imp fun _ h => h.symm
  · rw [← hl]
    exact mapRes_length hm

theorem pow2U64_val {prof : Profile} {b : Nat} (hb : b ≤ 31) {p : U64} (h : pow2U64 prof b = .ok p) :
    p.toNat = 2 ^ b := by
  unfold pow2U64 at h
  have e : b % 2 ^ 32 = b := Nat.mod_eq_of_lt (by omega)
  simp only [e] at h
  rw [if_pos (by omega)] at h
  cases h
  rw [BitVec.toNat_ofNat]
  exact Nat.mod_eq_of_lt (Nat.pow_lt_pow_right (by omega) (by omega))

theorem mix256_seed {key : Key} {seed : List U8} {h : U64} (e : mix256 key seed = .ok h) :
    seed.length = 32 := by
  unfold mix256 seedWords at e
  by_contra hc
  rw [if_pos hc] at e
  cases e

theorem fromSlice_seed {prof : Profile} {segExp cap0 : Nat} {fp0 : Nat → U32} {seed : List U8}
    {keys : List Key} {data : List U32} {label ptxtMod : U64} {f : BinaryFuseP32} (hk : 0 < keys.length)
    (h : BinaryFuseP32.fromSlice prof segExp cap0 fp0 seed keys data label ptxtMod = .ok f) :
    seed.length = 32 := by
  unfold BinaryFuseP32.fromSlice at h
  split at h
  · cases h
  · obtain ⟨_, hashes, _, _, _, h2, _⟩ := bfp_ok h
    have hl := mapRes_length h2
    exact mix256_seed (mapRes_getElem h2 hk (by omega))

theorem fromSlice_fromVec {prof : Profile} {segExp cap0 : Nat} {fp0 : Nat → U32} {seed : List U8}
    {keys : List Key} {data : List U32} {label ptxtMod : U64} {f : BinaryFuseP32}
    (h : BinaryFuseP32.fromSlice prof segExp cap0 fp0 seed keys data label ptxtMod = .ok f) :
    BinaryFuseP32.fromVec prof segExp cap0 fp0 seed keys data label ptxtMod = .ok f := by
  unfold BinaryFuseP32.fromSlice at h
  split at h
  · cases h
  · exact h

theorem published_lt {f : BinaryFuseP32} {b : Nat} (hb : b ≤ 31) (hp : f.ptxtMod.toNat = 2 ^ b)
    {col : List U32} (h : f.getFingerprintsMod = .ok col) : ∀ x ∈ col, x.toNat < 2 ^ b := by
  have h2 : 2 ^ b < 2 ^ 32 := Nat.pow_lt_pow_right (by omega) (by omega)
  have hlt : f.ptxtMod.toNat < 2 ^ 32 := by rw [hp]; exact h2
  have hpn : (f.ptxtMod.setWidth 32 : U32).toNat = 2 ^ b := by rw [setWidth_toNat_lt hlt, hp]
  have hne := setWidth_ne_zero (by rw [hp]; exact Nat.two_pow_pos b) hlt
  intro x hx
  obtain ⟨j, hj, rfl⟩ := List.getElem_of_mem hx
  unfold BinaryFuseP32.getFingerprintsMod at h
  have hl := mapRes_length h
  have e := mapRes_getElem h (i := j) (by omega) hj
  simp only [hne, if_false, Res.ok.injEq] at e
  rw [← e, BitVec.toNat_umod, hpn]
  exact Nat.mod_lt _ (Nat.two_pow_pos b)

/-- One coordinate of the keyword `parse_resp_as_row`. -/
theorem parseKvCoord {prof : Profile} {b : Nat} (h1 : 1 ≤ b) (h : b ≤ 31) (y nu rhs : U32) (f : U64) :
    (roundCoord prof (BitVec.ofNat 32 (2 ^ (32 - b))) (BitVec.ofNat 32 (2 ^ (31 - b)))
        (BitVec.ofNat 32 (2 ^ (32 - b)) * y + nu + rhs) rhs >>= fun r =>
      modPlain (r + f.setWidth 32) (BitVec.ofNat 32 (2 ^ b))) =
      .ok (BitVec.ofNat 32 ((y.toNat + f.toNat + carry b nu) % 2 ^ b)) := by
  obtain ⟨r, hr, hv⟩ := roundCoord_val (prof := prof) h1 h y nu rhs
  rw [hr, Res.bind_ok, modPlain_ok h]
  congr 2
  have hd : 2 ^ b ∣ 2 ^ 32 := Nat.pow_dvd_pow 2 (by omega)
  rw [BitVec.toNat_add, BitVec.toNat_setWidth, Nat.mod_mod_of_dvd _ hd, Nat.add_mod,
    Nat.mod_mod_of_dvd _ hd, hv, ← Nat.add_mod]
  unfold carry
  congr 1
  ring

/-- Inner product with a vector that differs from `u` by `D` at three positions. -/
theorem dot_three {u q c : List U32} {n : Nat} {D : U32} {i j k : Nat} (hu : u.length = n)
    (hq : q.length = n) (hc : c.length = n) (hi : i < n) (hj : j < n) (hk : k < n)
    (hij : i ≠ j) (hik : i ≠ k) (hjk : j ≠ k)
    (h : ∀ x < n, q.getD x 0#32 = u.getD x 0#32 + (if x ∈ [i, j, k] then D else 0#32)) :
    dot q c = dot u c + D * (c.getD i 0#32 + c.getD j 0#32 + c.getD k 0#32) := by
  have hqe : q = ((u.set i (u.getD i 0#32 + D)).set j (u.getD j 0#32 + D)).set k
      (u.getD k 0#32 + D) := by
    apply ext_getD (by simp [hu, hq])
    intro x hx
    have hx' : x < n := by simpa [hu] using hx
    rw [h x hx']
    simp only [List.getD_eq_getElem?_getD, List.getElem?_set, List.length_set, hu]
    by_cases e3 : k = x
    · subst e3; simp [hk]
    · by_cases e2 : j = x
      · subst e2; simp [hj, e3]
      · by_cases e1 : i = x
        · subst e1; simp [hi, e2, e3]
        · simp [e1, e2, e3, Ne.symm e1, Ne.symm e2, Ne.symm e3]
  rw [hqe, dot_set (by simp; omega) (by omega), dot_set (by simp; omega) (by omega),
    dot_set (by omega) (by omega)]
  have g1 : (u.set i (u.getD i 0#32 + D))[j]'(by simp; omega) = u[j] :=
    List.getElem_set_ne hij _
  have g2 : ((u.set i (u.getD i 0#32 + D)).set j (u.getD j 0#32 + D))[k]'(by simp; omega) = u[k] := by
    rw [List.getElem_set_ne hjk, List.getElem_set_ne hik]
  rw [g1, g2, getD_lt (by omega : i < u.length), getD_lt (by omega : j < u.length),
    getD_lt (by omega : k < u.length), getD_lt (by omega : i < c.length),
    getD_lt (by omega : j < c.length), getD_lt (by omega : k < c.length)]
  ring

theorem kv_arith {p q : Nat} (hd : p ∣ q) (x y z f c : Nat) :
    (((x + y) % q + z) % q + f + c) % p = ((x + y + z + f) % p + c) % p := by
  have hm : ∀ x, Nat.ModEq p (x % q) x := fun x => Nat.mod_mod_of_dvd _ hd
  have hr : ∀ x, Nat.ModEq p (x % p) x := fun x => Nat.mod_mod _ _
  exact Nat.ModEq.add_right c (((((hm _).trans ((hm _).add_right _)).add_right _)).trans (hr _).symm)

/-- Column `j` of a key-value database, as a filter: its construction and its published content. -/
structure IsColumn (prof : Profile) (segExp cap0 : Nat) (fp0 : Nat → Nat → U32) (seed : List U8)
    (kvs : List KeyValue) (p : U64) (j : Nat) (data : List U32) (f : BinaryFuseP32)
    (col : List U32) : Prop where
  dataLen : data.length = kvs.length
  dataVal : ∀ i (hi : i < kvs.length) (hd : i < data.length),
    ∃ hv : j < kvs[i].value.length, data[i] = kvs[i].value[j]
  built : BinaryFuseP32.fromSlice prof segExp cap0 (fp0 j) seed (kvs.map (·.key)) data
          (BitVec.ofNat 64 j) p = .ok f
  published : f.getFingerprintsMod = .ok col

/-- What fresh keyword query parameters contain. -/
theorem genKvParams_spec {prg : Prg} {seed : List U8} {n m : Nat}
    {rhs : List (List U32)} {tape tape' : List U32} {params : KVParams}
    {qp : QueryParams FilterParams} (hp : params.dim = n) (hr : params.rhs = rhs)
    (h : generateKvQueryParams (commonParamsFrom prg seed n m) params tape = .ok (qp, tape')) :
    ∃ s t1 e, randomTernaryVector n tape = .ok (s, t1) ∧
      randomTernaryVector m t1 = .ok (e, tape') ∧
      qp = { lhs := vadd ((generateLweMatrixFromSeed prg seed n m).map fun a => dot s a) e
             rhs := rhs.map fun c => dot s c
             elemSize := params.elemSize
             plaintextBits := params.plaintextBits
             extraParams := some params.filterParams
             used := false } := by
  unfold generateKvQueryParams at h
  rw [hp, hr] at h
  obtain ⟨⟨s, t1⟩, h1, h⟩ := Res.bind_eq_ok.1 h
  obtain ⟨⟨lhs, t2⟩, h2, h⟩ := Res.bind_eq_ok.1 h
  obtain ⟨r, h3, h⟩ := Res.bind_eq_ok.1 h
  simp only [Res.ok.injEq, Prod.mk.injEq] at h
  obtain ⟨_, e, h5, h6⟩ := multLeft_spec.1 h2
  obtain ⟨_, h8⟩ := multRight_eq_ok.1 h3
  have hl := (generateLwe_rect prg seed n m).1
  rw [commonParamsFrom] at h5 h6
  rw [hl] at h5
  refine ⟨s, t1, e, h1, by rw [← h.2]; exact h5, ?_⟩
  rw [← h.1, h6, h8]

theorem kvVecMult_ok {db : KVDatabase} {N : Nat} (hcol : ∀ c ∈ db.entries, c.length = N) {j : Nat}
    (hj : j < db.entries.length) {r : List U32} (hr : r.length = N) :
    db.vecMult r j = .ok (dot r (db.entries.getD j [])) := by
  unfold KVDatabase.vecMult
  rw [rd_ok hj, Res.bind_ok, vecMult_ok (by rw [hr, hcol _ (List.getElem_mem hj)]), getD_lt hj]
  rfl

/-- Published parameters of a database whose columns all have `N` entries. -/
theorem kvParams_ok {db : KVDatabase} {N n : Nat} {prg : Prg} {pseed : List U8}
    (hcol : ∀ c ∈ db.entries, c.length = N) (hN : 0 < N) (he : 0 < db.entries.length)
    (hb : 0 < db.plaintextBits) (hw : width db.elemSize db.plaintextBits ≤ db.entries.length) :
    KVParams.new prg pseed db n = .ok
      { dim := n, m := N, publicSeed := pseed,
        rhs := rhsOf prg pseed n N (width db.elemSize db.plaintextBits) fun j => db.entries.getD j []
        elemSize := db.elemSize, plaintextBits := db.plaintextBits,
        filterParams := db.filterParams } := by
  have hh : db.getMatrixHeight = .ok N := by
    unfold KVDatabase.getMatrixHeight
    rw [rd_ok he, Res.bind_ok, hcol _ (List.getElem_mem he)]
  unfold KVParams.new
  rw [generateParamsRhs_ok (T := db.elemSize) (b := db.plaintextBits) (h := N)
    (col := fun j => db.entries.getD j []) hh hN hb rfl rfl
    (fun j hj r hr => kvVecMult_ok hcol (by omega) hr), Res.bind_ok, hh]
  rfl

/-- The whole keyword exchange on a database whose columns are constructed filters. -/
theorem kv_exchange {prof : Profile} {prg : Prg} {pseed : List U8} {segExp cap0 : Nat}
    {fp0 : Nat → Nat → U32} {seed : List U8} {kvs : List KeyValue} {n m T b : Nat} {shard : KVShard}
    (hb1 : 1 ≤ b) (hb : b ≤ 31)
    (hsh : KVShard.new prof prg pseed segExp cap0 fp0 seed kvs n m T b = .ok shard)
    (hw : width T b ≤ shard.db.entries.length)
    {tape tape' : List U32} {qp : QueryParams FilterParams}
    (hgen : generateKvQueryParams (commonParamsFrom prg shard.baseParams.publicSeed
      shard.baseParams.dim shard.baseParams.m) shard.baseParams tape = .ok (qp, tape')) :
    ∃ s t1 e, randomTernaryVector n tape = .ok (s, t1) ∧
      randomTernaryVector shard.baseParams.m t1 = .ok (e, tape') ∧
      ∀ key, ∃ q resp row, qp.generateKvQuery prof key = ({ qp with used := true }, .ok q) ∧
        shard.answer q = .ok resp ∧
        QueryParams.parseKvRow prof { qp with used := true } resp key = .ok row ∧
        row.length = width T b ∧
        ∀ j (hj : j < width T b) (hr : j < row.length), ∃ p data f r, pow2U64 prof b = .ok p ∧
          IsColumn prof segExp cap0 fp0 seed kvs p j data f (shard.db.entries[j]) ∧
          f.retrieve key (BitVec.ofNat 64 j) = .ok r ∧ r.toNat < 2 ^ b ∧
          row[j] = BitVec.ofNat 32 ((r.toNat + carry b (dot e shard.db.entries[j])) % 2 ^ b) := by
  unfold KVShard.new at hsh
  obtain ⟨db, hdb, hsh⟩ := Res.bind_eq_ok.1 hsh
  obtain ⟨bp, hbp, hsh⟩ := Res.bind_eq_ok.1 hsh
  cases hsh
  simp only at hw hgen ⊢
  obtain ⟨lay, p, w, h0, hwv, hw0, hlay, hp, hfp, hdm, hdT, hdb', hel, hcols⟩ := kvNew_ok hdb
  have hpv := pow2U64_val hb hp
  obtain ⟨sw, _, hWF⟩ := bfLayout_wf hlay
  have hNpos : 0 < lay.arrayLen := by
    have := (hashOfHash_lt hWF 0#64).1
    omega
  have hcl : ∀ c ∈ db.entries, c.length = lay.arrayLen := by
    intro c hc
    obtain ⟨j, hj, rfl⟩ := List.getElem_of_mem hc
    obtain ⟨_, _, _, _, _, _, _, _, _, h⟩ := hcols j hj
    exact h
  have hseed : seed.length = 32 := by
    obtain ⟨_, _, _, _, h, _⟩ := hcols 0 (by omega)
    exact fromSlice_seed (by simpa using h0) h
  rw [kvParams_ok hcl hNpos (by omega) (by omega) (by rw [hdT, hdb']; exact hw), hdT, hdb'] at hbp
  cases hbp
  obtain ⟨s, t1, e, hs, he, hqp⟩ := genKvParams_spec (n := n) rfl rfl hgen
  simp only at he hqp
  refine ⟨s, t1, e, hs, he, ?_⟩
  intro key
  have hsl := (randomTernaryVector_spec hs).1
  have hel' := (randomTernaryVector_spec he).1
  have hA := generateLwe_rect prg pseed n lay.arrayLen
  have hlhs : qp.lhs.length = lay.arrayLen := by
    rw [hqp]; simp [vadd, hA.1, hel']
  have hqb : qp.plaintextBits = b := by rw [hqp]
  have hqu : qp.used = false := by rw [hqp]
  have hqf : qp.extraParams = some { seed := seed, geom := lay.geom } := by rw [hqp, ← hfp]
  obtain ⟨h, hh⟩ := mix256_total hseed key
  obtain ⟨slots, q, hev, hs3, hnd, hslt, hq, hql, hqd⟩ :=
    C07_kv_query_outcome prof kvs.length segExp cap0 lay hlay { seed := seed, geom := lay.geom }
      rfl hseed qp (by omega) hqf hqu hlhs key
  refine ⟨q, (List.range (width T b)).map fun j => dot q (db.entries.getD j []), ?_⟩
  -- what the slots are
  obtain ⟨i0, i1, i2, rfl⟩ : ∃ i0 i1 i2, slots = [i0, i1, i2] := by
    match slots, hs3 with
    | [a, b, c], _ => exact ⟨a, b, c, rfl⟩
  have n01 : i0 ≠ i1 ∧ i0 ≠ i2 ∧ i1 ≠ i2 := by
    simp only [List.nodup_cons, List.mem_cons, List.not_mem_nil, or_false, not_or] at hnd
    exact ⟨hnd.1.1, hnd.1.2, hnd.2.1⟩
  have hfpr : BinaryFuseP32.getKeyFingerprint key seed = fun label => .ok (mix h label) := by
    funext label
    simp [BinaryFuseP32.getKeyFingerprint, hh]
  let y : Nat → U32 := fun j => (db.entries.getD j []).getD i0 0#32 +
    (db.entries.getD j []).getD i1 0#32 + (db.entries.getD j []).getD i2 0#32
  refine ⟨(List.range (width T b)).map fun j => BitVec.ofNat 32 (((y j).toNat +
    (mix h (BitVec.ofNat 64 j)).toNat + carry b (dot e (db.entries.getD j []))) % 2 ^ b), ?_, ?_, ?_,
    by simp, ?_⟩
  · rw [kvQuery_fresh hqu] at hq ⊢
    have hq' : kvQueryBody prof qp key = .ok q := hq
    rw [hq']
  · unfold KVShard.answer KVDatabase.getRowWidthSelf
    rw [show getRowWidth db.elemSize db.plaintextBits = .ok (width T b) by
      rw [hdT, hdb']; exact getRowWidth_ok (by omega), Res.bind_ok]
    apply mapRes_ok_of_forall
    intro j hj
    rw [List.mem_range] at hj
    exact kvVecMult_ok hcl (by omega) hql
  · unfold QueryParams.parseKvRow
    simp only [hqb, hqf]
    rw [getRoundingFactor_ok hb, getRoundingFloor_ok hb1 hb, getPlaintextSize_ok hb]
    simp only [Res.bind_ok]
    rw [show qp.elemSize = T by rw [hqp], getRowWidth_ok (by omega), Res.bind_ok]
    apply mapRes_ok_of_forall
    intro j hj
    rw [List.mem_range] at hj
    have hj' : j < db.entries.length := lt_of_lt_of_le hj hw
    have hcj : (db.entries.getD j []).length = lay.arrayLen := by
      rw [getD_lt hj']; exact hcl _ (List.getElem_mem hj')
    have hrhs : qp.rhs[j]? = some (dot s ((List.range n).map fun k =>
          dot ((generateLweMatrixFromSeed prg pseed n lay.arrayLen).map fun r => r.getD k 0#32)
            (db.entries.getD j []))) := by
      rw [hqp]; simp [rhsOf, show j < width T b from hj]
    have hdot : dot q (db.entries.getD j []) = BitVec.ofNat 32 (2 ^ (32 - b)) * y j +
        dot e (db.entries.getD j []) + dot s ((List.range n).map fun k =>
          dot ((generateLweMatrixFromSeed prg pseed n lay.arrayLen).map fun r => r.getD k 0#32)
            (db.entries.getD j [])) := by
      rw [dot_three hlhs hql hcj (hslt i0 (by simp)) (hslt i1 (by simp)) (hslt i2 (by simp))
        n01.1 n01.2.1 n01.2.2 hqd, hqb]
      have e2 := lhs_dot (col := db.entries.getD j []) hsl hA.2 (by rw [hcj, hA.1])
        (show e.length = _ by rw [hel', hA.1])
      have e4 : qp.lhs = vadd ((generateLweMatrixFromSeed prg pseed n lay.arrayLen).map
          fun a => dot s a) e := by rw [hqp]
      rw [← e4] at e2
      rw [e2]
      simp only [y]
      ring
    rw [rd_of_some (a := dot q (db.entries.getD j [])) (by simp [show j < width T b from hj]),
      rd_of_some hrhs, hdot]
    simp only [Res.bind_ok, FilterParams.unmaskValue, hfpr]
    exact parseKvCoord hb1 hb _ _ _ _
  · intro j hj hr
    have hj' : j < db.entries.length := lt_of_lt_of_le hj hw
    obtain ⟨data, f, d1, d2, d3, d4, d5, d6, d7, d8⟩ := hcols j hj'
    obtain ⟨col, i, jj, l, x, yy, z, fpr, r, c1, c2, c3, c4, c5, c6, c7, c8, c9⟩ :=
      C36_unmask prof segExp cap0 (fp0 j) seed (kvs.map (·.key)) data (BitVec.ofNat 64 j) p f
        (fromSlice_fromVec d3) b hb hpv hseed key (BitVec.ofNat 64 j)
    rw [d7] at c1
    cases c1
    have hev' : BinaryFuseP32.hashEval prof key f.seed f.geom = .ok [i0, i1, i2] := by
      rw [d4, d5]; exact hev
    rw [hev'] at c3
    simp only [Res.ok.injEq, List.cons.injEq, and_true] at c3
    obtain ⟨rfl, rfl, rfl⟩ := c3
    rw [d5, hfpr] at c7
    cases c7
    refine ⟨p, data, f, r, hp, ⟨d1, d2, d3, d7⟩, c8, by rw [c9]; exact Nat.mod_lt _ (Nat.two_pow_pos b), ?_⟩
    rw [List.getElem_map, List.getElem_range]
    simp only [y, getD_lt hj']
    congr 1
    have hd : 2 ^ b ∣ 2 ^ 32 := Nat.pow_dvd_pow 2 (by omega)
    have g : ∀ {i : Nat} {x : U32}, (db.entries[j])[i]? = some x → (db.entries[j]).getD i 0#32 = x := by
      intro i x h
      rw [List.getD_eq_getElem?_getD, h]; rfl
    rw [g c4, g c5, g c6, c9, BitVec.toNat_add, BitVec.toNat_add]
    exact kv_arith hd _ _ _ _ _

end Chalamet
