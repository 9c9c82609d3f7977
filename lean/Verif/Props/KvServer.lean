import Verif.Props.Kv
import Verif.Props.Server
import Verif.Props.KvStrings

/-!
# The key-value server and message sizes: C70, C71
-/

namespace Chalamet
open Spec

/-- What a built key-value shard stores. -/
theorem kvShard_shape {prof : Profile} {prg : Prg} {pseed : List U8} {segExp cap0 : Nat}
    {fp0 : Nat → Nat → U32} {seed : List U8} {kvs : List KeyValue} {n m T b : Nat} {shard : KVShard}
    (hsh : KVShard.new prof prg pseed segExp cap0 fp0 seed kvs n m T b = .ok shard) :
    ∃ lay, bfLayout kvs.length segExp cap0 = .ok lay ∧ shard.baseParams.m = lay.arrayLen ∧
      shard.baseParams.publicSeed = pseed ∧ shard.baseParams.dim = n ∧
      0 < shard.db.entries.length ∧ (∀ col ∈ shard.db.entries, col.length = lay.arrayLen) ∧
      shard.db.elemSize = T ∧ shard.db.plaintextBits = b ∧
      (∃ h0 : 0 < kvs.length, shard.db.entries.length = kvs[0].value.length) ∧
      shard.baseParams.filterParams = { seed := seed, geom := lay.geom } ∧
      shard.baseParams.elemSize = T ∧ shard.baseParams.plaintextBits = b ∧
      (∃ lhs, swapMatrixFmt (generateLweMatrixFromSeed prg pseed n lay.arrayLen) = .ok lhs ∧
        (getRowWidth T b >>= fun w =>
          mapRes (fun i => mapRes (fun r => KVDatabase.vecMult shard.db r i) lhs) (List.range w)) =
          .ok shard.baseParams.rhs) := by
  unfold KVShard.new at hsh
  obtain ⟨db, hdb, hsh⟩ := Res.bind_eq_ok.1 hsh
  obtain ⟨bp, hbp, hsh⟩ := Res.bind_eq_ok.1 hsh
  cases hsh
  obtain ⟨lay, p, w, h0, hwv, hw0, hlay, hp, hfp, hdm, hdT, hdb', hel, hcols⟩ := kvNew_ok hdb
  have hcl : ∀ c ∈ db.entries, c.length = lay.arrayLen := by
    intro c hc
    obtain ⟨j, hj, rfl⟩ := List.getElem_of_mem hc
    obtain ⟨_, _, _, _, _, _, _, _, _, h⟩ := hcols j hj
    exact h
  have he : 0 < db.entries.length := by omega
  have hh : db.getMatrixHeight = .ok lay.arrayLen := by
    unfold KVDatabase.getMatrixHeight
    rw [rd_ok he, Res.bind_ok, hcl _ (List.getElem_mem he)]
  unfold KVParams.new at hbp
  obtain ⟨rhs, hr, hbp⟩ := Res.bind_eq_ok.1 hbp
  rw [hh, Res.bind_ok] at hbp
  cases hbp
  unfold generateParamsRhs at hr
  have hh' : DatabaseMatrix.getMatrixHeight db = .ok lay.arrayLen := hh
  rw [hh', Res.bind_ok] at hr
  obtain ⟨lhs, hl, hr⟩ := Res.bind_eq_ok.1 hr
  refine ⟨lay, hlay, rfl, rfl, rfl, he, hcl, hdT, hdb', ⟨h0, by rw [hel, hwv]⟩, hfp, hdT, hdb', lhs, hl, ?_⟩
  have e1 : DatabaseMatrix.getElemSize db = T := hdT
  have e2 : DatabaseMatrix.getPlaintextBits db = b := hdb'
  rw [e1, e2] at hr
  exact hr

/-- **C70.** For every key-value shard that was built (`1 ≤ b`): the stored columns all have as many cells as the
published number of records, whatever `m` was passed; a query with that many words is answered with the
serialised inner products with the first `width T b` columns; every query of another length panics, and when
the stored values are shorter than an element every query panics (`0 < T`). -/
theorem C70_kv_respond (prof : Profile) (prg : Prg) (pseed : List U8) (segExp cap0 : Nat)
    (fp0 : Nat → Nat → U32) (seed : List U8) (kvs : List KeyValue) (n m T b : Nat) (shard : KVShard)
    (hb1 : 1 ≤ b)
    (hsh : KVShard.new prof prg pseed segExp cap0 fp0 seed kvs n m T b = .ok shard) :
    (∀ col ∈ shard.db.entries, col.length = shard.baseParams.m) ∧
    (∃ h0 : 0 < kvs.length, shard.db.entries.length = kvs[0].value.length) ∧
    ∀ q : List U32,
      (q.length = shard.baseParams.m ∧ width T b ≤ shard.db.entries.length → shard.respond q =
        .ok (bincodeSerialize ((shard.db.entries.take (width T b)).map fun col => dot q col))) ∧
      (0 < T → (q.length ≠ shard.baseParams.m ∨ shard.db.entries.length < width T b) →
        shard.respond q = .panic) := by
  obtain ⟨lay, _, hm, _, _, he, hcl, hT, hb, hk, _⟩ := kvShard_shape hsh
  rw [hm]
  refine ⟨hcl, hk, ?_⟩
  have hgw : getRowWidth shard.db.elemSize shard.db.plaintextBits = .ok (width T b) := by
    rw [hT, hb]
    exact getRowWidth_ok (by omega)
  intro q
  constructor
  · rintro ⟨hq, hw⟩
    unfold KVShard.respond KVShard.answer KVDatabase.getRowWidthSelf
    rw [hgw, Res.bind_ok, mapRes_ok_of_forall (g := fun j => dot q (shard.db.entries.getD j [])) (by
      intro j hj
      rw [List.mem_range] at hj
      exact kvVecMult_ok hcl (by omega) hq), Res.bind_ok]
    congr 2
    apply List.ext_getElem (by simp; omega)
    intro j h1 h2
    simp only [List.getElem_map, List.getElem_range, List.getElem_take]
    rw [getD_lt]
  · intro hT0 hor
    have hw0 : 0 < width T b := Nat.div_pos (by omega) (by omega)
    unfold KVShard.respond KVShard.answer KVDatabase.getRowWidthSelf
    rw [hgw, Res.bind_ok]
    by_cases hq : q.length = lay.arrayLen
    · have hlt : shard.db.entries.length < width T b := by
        rcases hor with h | h
        · exact absurd hq h
        · exact h
      have hpre : mapRes (fun i => shard.db.vecMult q i) (List.range shard.db.entries.length) =
          .ok ((List.range shard.db.entries.length).map fun j => dot q (shard.db.entries.getD j [])) :=
        mapRes_ok_of_forall (by
          intro j hj
          rw [List.mem_range] at hj
          exact kvVecMult_ok hcl hj hq)
      have hbad : shard.db.vecMult q shard.db.entries.length = .panic := by
        unfold KVDatabase.vecMult rd
        simp
      obtain ⟨d, hd⟩ : ∃ d, width T b = shard.db.entries.length + (d + 1) :=
        ⟨width T b - shard.db.entries.length - 1, by omega⟩
      rw [hd, List.range_add, List.range_succ_eq_map, List.map_cons, Nat.add_zero,
        mapRes_panic_of hpre hbad]
      rfl
    · have hbad : shard.db.vecMult q 0 = .panic := by
        unfold KVDatabase.vecMult
        rw [rd_ok he, Res.bind_ok, vecMult_err (by rw [hcl _ (List.getElem_mem he)]; exact hq)]
        rfl
      obtain ⟨d, hd⟩ : ∃ d, width T b = d + 1 := ⟨width T b - 1, by omega⟩
      rw [hd, List.range_succ_eq_map, mapRes_cons, hbad]
      rfl

/-- **C70 (linearity).** The answer to a sum of two queries is the sum of the answers. -/
theorem C70_kv_linear (prof : Profile) (prg : Prg) (pseed : List U8) (segExp cap0 : Nat)
    (fp0 : Nat → Nat → U32) (seed : List U8) (kvs : List KeyValue) (n m T b : Nat) (shard : KVShard)
    (hb1 : 1 ≤ b)
    (hsh : KVShard.new prof prg pseed segExp cap0 fp0 seed kvs n m T b = .ok shard)
    (hw : width T b ≤ shard.db.entries.length)
    (q₁ q₂ : List U32) (h₁ : q₁.length = shard.baseParams.m) (h₂ : q₂.length = shard.baseParams.m) :
    ∃ a₁ a₂, shard.respond q₁ = .ok (bincodeSerialize a₁) ∧ shard.respond q₂ = .ok (bincodeSerialize a₂) ∧
      shard.respond (vadd q₁ q₂) = .ok (bincodeSerialize (vadd a₁ a₂)) ∧ a₁.length = width T b ∧
      a₂.length = width T b := by
  obtain ⟨hcl, _, hr⟩ := C70_kv_respond prof prg pseed segExp cap0 fp0 seed kvs n m T b shard hb1 hsh
  refine ⟨_, _, (hr q₁).1 ⟨h₁, hw⟩, (hr q₂).1 ⟨h₂, hw⟩, ?_, by simp; omega, by simp; omega⟩
  rw [(hr _).1 ⟨by simp [vadd, h₁, h₂], hw⟩]
  congr 2
  apply List.ext_getElem (by simp [vadd])
  intro j hj1 hj2
  simp only [vadd, List.getElem_map, List.getElem_zipWith]
  exact dot_vadd_left (by omega)

/-- **C70 (any client can read any cell).** The server answers every vector of the right length, also one no honest
client sends: a query with `c` in position `i` and zero elsewhere is answered with `c` times the `i`-th cell of
every column. -/
theorem C70_kv_unit_query (prof : Profile) (prg : Prg) (pseed : List U8) (segExp cap0 : Nat)
    (fp0 : Nat → Nat → U32) (seed : List U8) (kvs : List KeyValue) (n m T b : Nat) (shard : KVShard)
    (hb1 : 1 ≤ b)
    (hsh : KVShard.new prof prg pseed segExp cap0 fp0 seed kvs n m T b = .ok shard)
    (hw : width T b ≤ shard.db.entries.length) (i : Nat) (hi : i < shard.baseParams.m) (c : U32) :
    shard.respond ((List.replicate shard.baseParams.m 0#32).set i c) =
      .ok (bincodeSerialize ((shard.db.entries.take (width T b)).map fun col => c * col.getD i 0#32)) := by
  obtain ⟨hcl, _, hr⟩ := C70_kv_respond prof prg pseed segExp cap0 fp0 seed kvs n m T b shard hb1 hsh
  rw [(hr _).1 ⟨by simp, hw⟩]
  congr 2
  apply List.map_congr_left
  intro col hcol
  have hlen := hcl col (List.mem_of_mem_take hcol)
  rw [← hlen] at hi ⊢
  have hz : ∀ (v : List U32), dot (List.replicate v.length 0#32) v = 0#32 := by
    intro v
    induction v with
    | nil => rfl
    | cons x v ih =>
      rw [List.length_cons, List.replicate_succ, dot, ih]
      simp
  clear hlen hcol
  induction col generalizing i with
  | nil => simp at hi
  | cons x v ih =>
    rw [List.length_cons, List.replicate_succ]
    cases i with
    | zero => simp [dot, hz]
    | succ i =>
      rw [List.set_cons_succ, dot, ih i (by simpa using hi)]
      simp

/-- Concrete case: the example shard of `KvStrings` (three pairs, two columns of twelve cells; the recorded `m` is 99)
answers the unit query for cell 5 with that cell, refuses a query of 99 words, and all answers have 16 bytes. -/
example : (kvExShard >>= fun sh =>
    sh.respond ((List.replicate 12 0#32).set 5 1#32) >>= fun r =>
    .ok (sh.db.entries.map (·.length), decide (r = bincodeSerialize (sh.db.entries.map (·.getD 5 0#32))),
      r.length, sh.baseParams.m, decide (sh.respond (List.replicate 99 0#32) = .panic))) =
    .ok ([12, 12], true, 16, 12, true) := by decide +kernel

/-! ## C71: message sizes -/

/-- **C71 (index).** Every message of the index protocol has a size that depends only on `n`, `m`, `T` and `b`: the
published matrix is `width T b` columns of `n` words, every query ever produced has `m` words, and every
response has `8 + 4 * width T b` bytes, whatever the elements, the randomness, the index and the query. -/
theorem C71_index_sizes (prof : Profile) (prg : Prg) (seed : List U8) (strs : List (List Char))
    (n m T b : Nat) (shard : Shard) (hb : b ≤ 31)
    (h : Shard.fromBase64Strings prof prg seed strs n m T b = .ok shard) :
    shard.baseParams.rhs.length = width T b ∧ (∀ col ∈ shard.baseParams.rhs, col.length = n) ∧
    (∀ tape qp tape', generateIndexQueryParams (commonParamsFrom prg shard.baseParams.publicSeed
        shard.baseParams.dim shard.baseParams.m) shard.baseParams tape = .ok (qp, tape') →
      ∀ i q, (qp.generateIndexQuery prof i).2 = .ok q → q.length = m) ∧
    ∀ q bytes, shard.respond q = .ok bytes → bytes.length = 8 + 4 * width T b := by
  obtain ⟨hb1, hm0, elems, hl, _, hdec, _, rfl⟩ := shardInv (by omega) h
  refine ⟨by simp [shardOf, rhsOf], ?_, ?_, ?_⟩
  · intro col hcol
    simp only [shardOf, rhsOf, List.mem_map, List.mem_range] at hcol
    obtain ⟨j, _, rfl⟩ := hcol
    simp
  · intro tape qp tape' hgen i q hq
    obtain ⟨s, t1, e, _, he, hqp⟩ := genParams_spec (n := n) rfl rfl hgen
    have hel : e.length = m := (randomTernaryVector_spec he).1
    have hA := generateLwe_rect prg seed n m
    have hu : qp.used = false := by rw [hqp]
    have hqb : qp.plaintextBits = b := by rw [hqp]; rfl
    have hll : qp.lhs.length = m := by
      rw [hqp]
      show (vadd ((generateLweMatrixFromSeed prg seed n m).map fun a => dot s a) e).length = m
      simp [vadd, hel, hA.1]
    obtain ⟨_, _, hset⟩ := (indexQuery_ok_iff (by omega) hu).1 hq
    rw [hset, List.length_set, hll]
  · intro q bytes hr
    unfold Shard.respond Shard.answer IndexDatabase.getRowWidthSelf at hr
    obtain ⟨resp, hr1, hr⟩ := Res.bind_eq_ok.1 hr
    have e : getRowWidth (shardOf prg seed elems n m T b).db.elemSize
        (shardOf prg seed elems n m T b).db.plaintextBits = .ok (width T b) :=
      getRowWidth_ok (by show 0 < b; omega)
    rw [e, Res.bind_ok] at hr1
    have := mapRes_length hr1
    cases hr
    rw [bincodeSerialize_length, this, List.length_range]

/-- **C71 (keyword).** The same for a key-value shard, with the published number of cells in place of `m`: for a
fixed number of pairs it depends on the two size parameters of the filter layout only. -/
theorem C71_kv_sizes (prof : Profile) (prg : Prg) (pseed : List U8) (segExp cap0 : Nat)
    (fp0 : Nat → Nat → U32) (seed : List U8) (kvs : List KeyValue) (n m T b : Nat) (shard : KVShard)
    (hb1 : 1 ≤ b) (hb : b ≤ 31)
    (hsh : KVShard.new prof prg pseed segExp cap0 fp0 seed kvs n m T b = .ok shard) :
    (∃ lay, bfLayout kvs.length segExp cap0 = .ok lay ∧ shard.baseParams.m = lay.arrayLen) ∧
    shard.baseParams.rhs.length = width T b ∧ (∀ col ∈ shard.baseParams.rhs, col.length = n) ∧
    (∀ tape qp tape', generateKvQueryParams (commonParamsFrom prg shard.baseParams.publicSeed
        shard.baseParams.dim shard.baseParams.m) shard.baseParams tape = .ok (qp, tape') →
      ∀ key q, (qp.generateKvQuery prof key).2 = .ok q → q.length = shard.baseParams.m) ∧
    ∀ q bytes, shard.respond q = .ok bytes → bytes.length = 8 + 4 * width T b := by
  obtain ⟨lay, hlay, hm, hps, hdim, he, hcl, hT, hb', _, hfp, hpT, hpb, lhs, hlhs, hrhs⟩ := kvShard_shape hsh
  obtain ⟨sw, _, hWF⟩ := bfLayout_wf hlay
  have hNpos : 0 < lay.arrayLen := by
    have := (hashOfHash_lt hWF 0#64).1
    omega
  rw [getRowWidth_ok (by omega), Res.bind_ok] at hrhs
  have hA := generateLwe_rect prg pseed n lay.arrayLen
  refine ⟨⟨lay, hlay, hm⟩, by rw [mapRes_length hrhs, List.length_range]; rfl, ?_, ?_, ?_⟩
  · intro col hcol
    obtain ⟨j, hj, rfl⟩ := List.getElem_of_mem hcol
    have := mapRes_length hrhs
    have e := mapRes_getElem hrhs (i := j) (by omega) hj
    rw [mapRes_length e]
    rw [swapMatrixFmt_rect hA hNpos] at hlhs
    cases hlhs
    simp
  · intro tape qp tape' hgen key q hq
    rw [hps, hdim, hm] at hgen
    obtain ⟨s, t1, e, _, he', hqp⟩ := genKvParams_spec (n := n) hdim rfl hgen
    have hel := (randomTernaryVector_spec he').1
    have hll : qp.lhs.length = lay.arrayLen := by
      rw [hqp]; simp [vadd, hel, hA.1]
    have hu : qp.used = false := by rw [hqp]
    have hqb : qp.plaintextBits = b := by rw [hqp]; exact hpb
    have hqf : qp.extraParams = some { seed := seed, geom := lay.geom } := by rw [hqp, ← hfp]
    rw [hm, ← hll]
    rw [kvQuery_fresh hu] at hq
    unfold kvQueryBody at hq
    rw [getRoundingFactor_ok (by omega), Res.bind_ok, hqf] at hq
    simp only at hq
    obtain ⟨slots, hs, hq⟩ := Res.bind_eq_ok.1 hq
    obtain ⟨p, e, hl, _⟩ := addAt_spec _ slots qp.lhs (addAt_eq_ok hq)
    rw [e] at hq
    cases hq
    exact hl
  · intro q bytes hr
    unfold KVShard.respond KVShard.answer KVDatabase.getRowWidthSelf at hr
    obtain ⟨resp, hr1, hr⟩ := Res.bind_eq_ok.1 hr
    rw [hT, hb', getRowWidth_ok (by omega), Res.bind_ok] at hr1
    have := mapRes_length hr1
    cases hr
    rw [bincodeSerialize_length, this, List.length_range]
    rfl

end Chalamet
