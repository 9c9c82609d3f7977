import Verif.Props.Stale
import Verif.Props.Witnesses

/-!
# C109 for keyword queries

The key-value server builds a new shard (with a new filter seed and a new public seed), and a client goes on using the
old parameters.
-/

namespace Chalamet
open Spec Finset

/-- Publish the old key-value database, prepare a query for `key` with its parameters, and have it answered by a
shard of the new one (`src/api.rs:150-227, 333-400`). -/
def staleKvRead (prof : Profile) (prg : Prg) (pseed₁ pseed₂ : List U8) (segExp cap0 : Nat) (fp₁ fp₂ : Nat → Nat → U32)
    (seed₁ seed₂ : List U8) (old new : List KeyValue) (n m T b : Nat) (tape : List U32) (key : Key) :
    Res (List U32) := do
  let shard₁ ← KVShard.new prof prg pseed₁ segExp cap0 fp₁ seed₁ old n m T b
  let shard₂ ← KVShard.new prof prg pseed₂ segExp cap0 fp₂ seed₂ new n m T b
  let (qp, _) ← generateKvQueryParams
    (commonParamsFrom prg shard₁.baseParams.publicSeed shard₁.baseParams.dim shard₁.baseParams.m)
    shard₁.baseParams tape
  let (qp', q) := qp.generateKvQuery prof key
  let q ← q
  let bytes ← shard₂.respond q
  let resp ← bincodeDeserialize bytes
  qp'.parseKvRow prof resp key

/-- What `staleKvRead` does, once both databases exist; `y` does not depend on the public matrix. -/
theorem staleKvRead_eq {prof : Profile} {pseed₁ pseed₂ : List U8} {segExp cap0 : Nat} {fp₁ fp₂ : Nat → Nat → U32}
    {seed₁ seed₂ : List U8} {old new : List KeyValue} {n m T b N : Nat} {db₁ db₂ : KVDatabase}
    (hb1 : 1 ≤ b) (hb : b ≤ 31) (hT : T < 2 ^ 64) (hl : old.length = new.length)
    (hdb₁ : KVDatabase.new prof segExp cap0 fp₁ seed₁ old m T b = .ok db₁)
    (hdb₂ : KVDatabase.new prof segExp cap0 fp₂ seed₂ new m T b = .ok db₂)
    (hw₁ : width T b ≤ db₁.entries.length) (hw₂ : width T b ≤ db₂.entries.length)
    (hN : db₁.getMatrixHeight = .ok N)
    {s t1 e t2 tape : List U32} (hs : randomTernaryVector n tape = .ok (s, t1))
    (he : randomTernaryVector N t1 = .ok (e, t2)) (key : Key) :
    ∃ y : Nat → Nat, ∀ prg : Prg,
      staleKvRead prof prg pseed₁ pseed₂ segExp cap0 fp₁ fp₂ seed₁ seed₂ old new n m T b tape key =
        .ok ((List.range (width T b)).map fun j => BitVec.ofNat 32 ((y j +
          carry b (dot e (db₂.entries.getD j []) +
            dot ((commonParamsFrom prg pseed₁ n N).map fun a => dot s a)
              (vsub (db₂.entries.getD j []) (db₁.entries.getD j [])))) % 2 ^ b)) := by
  obtain ⟨lay, p, w, h0, hwv, hw0, hlay, hp, hfp, hdm, hdT, hdb', hel, hcols⟩ := kvNew_ok hdb₁
  obtain ⟨lay', p', w', h0', hwv', hw0', hlay', hp', hfp', hdm', hdT', hdb'', hel', hcols'⟩ := kvNew_ok hdb₂
  rw [← hl, hlay] at hlay'
  cases hlay'
  obtain ⟨sw, _, hWF⟩ := bfLayout_wf hlay
  have hNpos : 0 < lay.arrayLen := by
    have := (hashOfHash_lt hWF 0#64).1
    omega
  have hcl : ∀ c ∈ db₁.entries, c.length = lay.arrayLen := by
    intro c hc
    obtain ⟨j, hj, rfl⟩ := List.getElem_of_mem hc
    obtain ⟨_, _, _, _, _, _, _, _, _, h⟩ := hcols j hj
    exact h
  have hcl' : ∀ c ∈ db₂.entries, c.length = lay.arrayLen := by
    intro c hc
    obtain ⟨j, hj, rfl⟩ := List.getElem_of_mem hc
    obtain ⟨_, _, _, _, _, _, _, _, _, h⟩ := hcols' j hj
    exact h
  have hNe : N = lay.arrayLen := by
    unfold KVDatabase.getMatrixHeight at hN
    rw [rd_ok (by omega), Res.bind_ok, hcl _ (List.getElem_mem _)] at hN
    cases hN
    rfl
  subst hNe
  have hseed : seed₁.length = 32 := by
    obtain ⟨_, _, _, _, h, _⟩ := hcols 0 (by omega)
    exact fromSlice_seed (by simpa using h0) h
  have hsl := (randomTernaryVector_spec hs).1
  have hel' := (randomTernaryVector_spec he).1
  obtain ⟨h, hh⟩ := mix256_total hseed key
  obtain ⟨i0, i1, i2, hev, hi0, hi1, hi2, n01, n02, n12⟩ := getHashEvals_ok prof hlay
    (fp := { seed := seed₁, geom := lay.geom }) rfl hseed key
  have hfpr : BinaryFuseP32.getKeyFingerprint key seed₁ = fun label => .ok (mix h label) := by
    funext label
    simp [BinaryFuseP32.getKeyFingerprint, hh]
  let y : Nat → U32 := fun j => (db₂.entries.getD j []).getD i0 0#32 +
    (db₂.entries.getD j []).getD i1 0#32 + (db₂.entries.getD j []).getD i2 0#32
  refine ⟨fun j => (y j).toNat + (mix h (BitVec.ofNat 64 j)).toNat, fun prg => ?_⟩
  have hA := generateLwe_rect prg pseed₁ n lay.arrayLen
  unfold staleKvRead KVShard.new
  rw [hdb₁, hdb₂, Res.bind_ok, Res.bind_ok,
    kvParams_ok hcl hNpos (by omega) (by omega) (by rw [hdT, hdb']; exact hw₁),
    kvParams_ok hcl' hNpos (by omega) (by omega) (by rw [hdT', hdb'']; exact hw₂), hdT, hdb', hdT', hdb'']
  simp only [Res.bind_ok]
  have hgen : generateKvQueryParams (commonParamsFrom prg pseed₁ n lay.arrayLen)
      ⟨n, lay.arrayLen, pseed₁,
        rhsOf prg pseed₁ n lay.arrayLen (width T b) fun j => db₁.entries.getD j [],
        T, b, db₁.filterParams⟩ tape = .ok (⟨
        vadd ((commonParamsFrom prg pseed₁ n lay.arrayLen).map fun a => dot s a) e,
        (rhsOf prg pseed₁ n lay.arrayLen (width T b) fun j => db₁.entries.getD j []).map fun c => dot s c, T, b,
        some db₁.filterParams, false⟩, t2) := by
    unfold generateKvQueryParams
    simp only
    rw [hs, Res.bind_ok]
    simp only
    rw [multLeft_spec.2 ⟨fun a ha => by rw [hsl]; exact (hA.2 a ha).symm, e,
      by rw [commonParamsFrom, hA.1]; exact he, rfl⟩, Res.bind_ok]
    simp only
    rw [multRight_eq_ok.2 ⟨?_, rfl⟩, Res.bind_ok]
    intro c hc
    rw [hsl]
    simp only [rhsOf, List.mem_map] at hc
    obtain ⟨j, _, rfl⟩ := hc
    simp
  rw [hgen, Res.bind_ok]
  simp only
  generalize hQ : (⟨vadd ((commonParamsFrom prg pseed₁ n lay.arrayLen).map fun a => dot s a) e,
        (rhsOf prg pseed₁ n lay.arrayLen (width T b) fun j => db₁.entries.getD j []).map fun c => dot s c, T, b,
        some db₁.filterParams, false⟩ : QueryParams FilterParams) = qp
  have hQl : qp.lhs = vadd ((commonParamsFrom prg pseed₁ n lay.arrayLen).map fun a => dot s a) e := by rw [← hQ]
  have hqb : qp.plaintextBits = b := by rw [← hQ]
  have hqT : qp.elemSize = T := by rw [← hQ]
  have hqu : qp.used = false := by rw [← hQ]
  have hqf : qp.extraParams = some { seed := seed₁, geom := lay.geom } := by rw [← hQ, ← hfp]
  have hlhs : qp.lhs.length = lay.arrayLen := by
    rw [hQl]; simp [vadd, commonParamsFrom, hA.1, hel']
  obtain ⟨slots, q, hev', _, _, _, hq, hql, hqd⟩ :=
    C07_kv_query_outcome prof old.length segExp cap0 lay hlay { seed := seed₁, geom := lay.geom }
      rfl hseed qp (by omega) hqf hqu hlhs key
  rw [hev] at hev'
  cases hev'
  rw [kvQuery_fresh hqu] at hq ⊢
  simp only at hq ⊢
  rw [hq, Res.bind_ok]
  have hans : (KVShard.mk db₂ ⟨n, lay.arrayLen, pseed₂,
        rhsOf prg pseed₂ n lay.arrayLen (width T b) fun j => db₂.entries.getD j [],
        T, b, db₂.filterParams⟩).answer q =
      .ok ((List.range (width T b)).map fun j => dot q (db₂.entries.getD j [])) := by
    unfold KVShard.answer KVDatabase.getRowWidthSelf
    rw [show getRowWidth db₂.elemSize db₂.plaintextBits = .ok (width T b) by
      rw [hdT', hdb'']; exact getRowWidth_ok (by omega), Res.bind_ok]
    apply mapRes_ok_of_forall
    intro j hj
    rw [List.mem_range] at hj
    exact kvVecMult_ok hcl' (by omega) hql
  unfold KVShard.respond
  rw [hans, Res.bind_ok, Res.bind_ok]
  have hser := bincodeDeserialize_serialize ((List.range (width T b)).map fun j => dot q (db₂.entries.getD j [])) [] (by
    rw [List.length_map, List.length_range]
    unfold width
    rcases Nat.lt_or_ge 1 b with h | h
    · have h2 : (T + b - 1) / b ≤ (T + b - 1) / 2 := Nat.div_le_div_left (by omega) (by omega)
      omega
    · have : b = 1 := by omega
      subst this
      simpa using hT)
  rw [List.append_nil] at hser
  rw [hser, Res.bind_ok]
  unfold QueryParams.parseKvRow
  simp only [hqb, hqf, hqT]
  rw [getRoundingFactor_ok hb, getRoundingFloor_ok hb1 hb, getPlaintextSize_ok hb]
  simp only [Res.bind_ok]
  rw [getRowWidth_ok (by omega), Res.bind_ok]
  apply mapRes_ok_of_forall
  intro j hj
  rw [List.mem_range] at hj
  have hj₁ : j < db₁.entries.length := lt_of_lt_of_le hj hw₁
  have hj₂ : j < db₂.entries.length := lt_of_lt_of_le hj hw₂
  have hc₁ : (db₁.entries.getD j []).length = lay.arrayLen := by
    rw [getD_lt hj₁]; exact hcl _ (List.getElem_mem hj₁)
  have hc₂ : (db₂.entries.getD j []).length = lay.arrayLen := by
    rw [getD_lt hj₂]; exact hcl' _ (List.getElem_mem hj₂)
  have hrhs : qp.rhs[j]? = some (dot s ((List.range n).map fun k =>
        dot ((generateLweMatrixFromSeed prg pseed₁ n lay.arrayLen).map fun r => r.getD k 0#32)
          (db₁.entries.getD j []))) := by
    rw [← hQ]; simp [rhsOf, show j < width T b from hj]
  have hdot : dot q (db₂.entries.getD j []) = BitVec.ofNat 32 (2 ^ (32 - b)) * y j +
      (dot e (db₂.entries.getD j []) + dot ((commonParamsFrom prg pseed₁ n lay.arrayLen).map fun a => dot s a)
        (vsub (db₂.entries.getD j []) (db₁.entries.getD j []))) + dot s ((List.range n).map fun k =>
        dot ((generateLweMatrixFromSeed prg pseed₁ n lay.arrayLen).map fun r => r.getD k 0#32)
          (db₁.entries.getD j [])) := by
    rw [dot_three hlhs hql hc₂ hi0 hi1 hi2 n01 n02 n12 hqd, hqb, hQl,
      dot_vadd_left (by simp [commonParamsFrom, hA.1, hel']),
      dot_transpose s (generateLweMatrixFromSeed prg pseed₁ n lay.arrayLen) (db₁.entries.getD j []) n hsl hA.2
        (by rw [hc₁, hA.1]), dot_vsub (by rw [hc₁, hc₂])]
    simp only [y, commonParamsFrom]
    ring
  rw [rd_of_some (a := dot q (db₂.entries.getD j [])) (by simp [show j < width T b from hj]),
    rd_of_some hrhs, hdot]
  simp only [Res.bind_ok, FilterParams.unmaskValue, hfpr]
  exact parseKvCoord hb1 hb _ _ _ _

open scoped Classical in
/-- **C109 (keyword lookups with old parameters read noise).** Suppose that in the matrix built from the new pairs
cell `i₀` of column `j` differs from the old one (whatever else differs).
A client with the old parameters and a secret that is not zero asks for any key. A row is always parsed, and over all
rows `i₀` of the public matrix the digit `j` in it is uniformly distributed: every one of the `2^b` values is read for
exactly a fraction `2^-b`. -/
theorem C109_kv_noise (prof : Profile) (prg : Prg) (pseed₁ pseed₂ : List U8) (segExp cap0 : Nat)
    (fp₁ fp₂ : Nat → Nat → U32) (seed₁ seed₂ : List U8) (old new : List KeyValue) (n m T b N : Nat)
    (db₁ db₂ : KVDatabase) (hb1 : 1 ≤ b) (hb : b ≤ 16) (hT : T < 2 ^ 64) (hl : old.length = new.length)
    (hdb₁ : KVDatabase.new prof segExp cap0 fp₁ seed₁ old m T b = .ok db₁)
    (hdb₂ : KVDatabase.new prof segExp cap0 fp₂ seed₂ new m T b = .ok db₂)
    (hw₁ : width T b ≤ db₁.entries.length) (hw₂ : width T b ≤ db₂.entries.length)
    (hN : db₁.getMatrixHeight = .ok N)
    (s t1 e t2 tape : List U32) (hs : randomTernaryVector n tape = .ok (s, t1))
    (he : randomTernaryVector N t1 = .ok (e, t2)) (hs0 : ∃ x ∈ s, x ≠ 0#32) (key : Key) (i₀ : Fin N) (j : Nat)
    (hj : j < width T b) (x y : U32) (hx : (db₁.entries.getD j [])[i₀.val]? = some x)
    (hy : (db₂.entries.getD j [])[i₀.val]? = some y) (hxy : x ≠ y)
    (d : Nat) (hd : d < 2 ^ b) :
    (∀ prg', ∃ row, staleKvRead prof prg' pseed₁ pseed₂ segExp cap0 fp₁ fp₂ seed₁ seed₂ old new n m T b tape key =
      .ok row ∧ row.length = width T b) ∧
    (univ.filter fun a : Fin n → Fin 4294967296 => ∃ row,
      staleKvRead prof (withRow prg pseed₁ i₀ a) pseed₁ pseed₂ segExp cap0 fp₁ fp₂ seed₁ seed₂ old new n m T b tape key =
        .ok row ∧ row[j]? = some (BitVec.ofNat 32 d)).card * 2 ^ b = (2 ^ 32) ^ n := by
  obtain ⟨z, hz⟩ := staleKvRead_eq (pseed₁ := pseed₁) (pseed₂ := pseed₂) hb1 (by omega) hT hl hdb₁ hdb₂ hw₁ hw₂ hN hs he key
  refine ⟨fun prg' => ⟨_, hz prg', by simp⟩, ?_⟩
  have hsl := (randomTernaryVector_spec hs).1
  have hlen : ∀ (c c' : List U32), c.length = N → c'.length = N → (vsub c c').length = N := by
    intro c c' h h'
    simp [vsub, h, h']
  have hcols : (db₁.entries.getD j []).length = N ∧ (db₂.entries.getD j []).length = N := by
    obtain ⟨lay, _, _, _, _, _, hlay, _, _, _, _, _, _, hcols⟩ := kvNew_ok hdb₁
    obtain ⟨lay', _, _, _, _, _, hlay', _, _, _, _, _, _, hcols'⟩ := kvNew_ok hdb₂
    rw [← hl, hlay] at hlay'
    cases hlay'
    obtain ⟨_, _, _, _, _, _, _, _, _, h⟩ := hcols j (lt_of_lt_of_le hj hw₁)
    obtain ⟨_, _, _, _, _, _, _, _, _, h'⟩ := hcols' j (lt_of_lt_of_le hj hw₂)
    obtain ⟨_, _, _, _, _, _, _, _, _, h0⟩ := hcols 0 (by omega)
    have hNe : N = lay.arrayLen := by
      unfold KVDatabase.getMatrixHeight at hN
      rw [rd_ok (by omega), Res.bind_ok, h0] at hN
      cases hN
      rfl
    rw [getD_lt (lt_of_lt_of_le hj hw₁), getD_lt (lt_of_lt_of_le hj hw₂), h, h', hNe]
    exact ⟨rfl, rfl⟩
  have hlt₁ : x.toNat < 2 ^ b := by
    obtain ⟨_, _, _, _, _, hc⟩ := C37_shared_geometry prof segExp cap0 fp₁ seed₁ old m T b (by omega) db₁ hdb₁
    have hj' := lt_of_lt_of_le hj hw₁
    rw [getD_lt hj'] at hx
    exact (hc _ (List.getElem_mem hj')).2.1 x (List.mem_of_getElem? hx)
  have hlt₂ : y.toNat < 2 ^ b := by
    obtain ⟨_, _, _, _, _, hc⟩ := C37_shared_geometry prof segExp cap0 fp₂ seed₂ new m T b (by omega) db₂ hdb₂
    have hj' := lt_of_lt_of_le hj hw₂
    rw [getD_lt hj'] at hy
    exact (hc _ (List.getElem_mem hj')).2.1 y (List.mem_of_getElem? hy)
  have hdvd := sub_not_dvd hb1 hb hlt₁ hlt₂ hxy
  have hvl := hlen _ _ hcols.2 hcols.1
  obtain ⟨r, hoff⟩ := dot_withRow (n := n) prg pseed₁ s i₀
    (vsub (db₂.entries.getD j []) (db₁.entries.getD j [])) hvl (y - x) (by
      unfold vsub
      rw [List.getElem?_zipWith, hx, hy])
  rw [← card_carry hb1 (by omega) hsl (randomTernaryVector_spec hs).2 hs0 (y - x) hdvd (z j)
    (dot e (db₂.entries.getD j []) + r) hd]
  congr 2
  ext a
  simp only [mem_filter, mem_univ, true_and]
  rw [hz]
  have hp : (2 : Nat) ^ b ≤ 2 ^ 16 := Nat.pow_le_pow_right (by omega) hb
  have hlt := Nat.mod_lt (z j + carry b (dot e (db₂.entries.getD j []) + r +
    dot s (List.ofFn fun x => BitVec.ofNat 32 (a x).val) * (y - x))) (Nat.two_pow_pos b)
  have hrow : ((List.range (width T b)).map fun j => BitVec.ofNat 32 ((z j +
          carry b (dot e (db₂.entries.getD j []) +
            dot ((commonParamsFrom (withRow prg pseed₁ i₀ a) pseed₁ n N).map fun a => dot s a)
              (vsub (db₂.entries.getD j []) (db₁.entries.getD j [])))) % 2 ^ b))[j]? =
      some (BitVec.ofNat 32 ((z j + carry b (dot e (db₂.entries.getD j []) + r +
        dot s (List.ofFn fun x => BitVec.ofNat 32 (a x).val) * (y - x))) % 2 ^ b)) := by
    rw [List.getElem?_map, List.getElem?_range hj]
    simp only [Option.map_some, hoff a]
    rw [BitVec.add_assoc]
  constructor
  · rintro ⟨row, hr, hv⟩
    simp only [Res.ok.injEq] at hr
    rw [← hr, hrow, Option.some.injEq] at hv
    have := congrArg BitVec.toNat hv
    rw [BitVec.toNat_ofNat, BitVec.toNat_ofNat] at this
    generalize (z j + carry b (dot e (db₂.entries.getD j []) + r +
      dot s (List.ofFn fun x => BitVec.ofNat 32 (a x).val) * (y - x))) % 2 ^ b = u at this hlt ⊢
    rwa [Nat.mod_eq_of_lt (by omega), Nat.mod_eq_of_lt (by omega)] at this
  · intro h
    exact ⟨_, rfl, by rw [hrow, h]⟩

/-- Non-vacuity: one value of three changes; both databases are built, with the same height, some cell of the first
column changes, and the client's secret is not zero. -/
example : ∃ db₁ db₂, KVDatabase.new .debug 3 12 wFp0 exSeed wKvs 99 16 9 = .ok db₁ ∧
    KVDatabase.new .debug 3 12 wFp0 exSeed (List.zipWith (fun k v => ⟨k, v⟩) exKeys
      [[301#32, 7#32], [0#32, 511#32], [1#32, 64#32]]) 99 16 9 = .ok db₂ ∧
    width 16 9 ≤ db₁.entries.length ∧ width 16 9 ≤ db₂.entries.length ∧ db₁.getMatrixHeight = .ok 24 ∧
    (∃ i < 24, (db₁.entries.getD 0 [])[i]? ≠ (db₂.entries.getD 0 [])[i]?) ∧
    (match randomTernaryVector 3 (kvExTape.drop 2) with
      | .ok (s, t) => s.any (· != 0#32) && (randomTernaryVector 24 t).isOk
      | _ => false) = true := by
  obtain ⟨db₁, h1, h2, h3, h4⟩ := exOk (KVDatabase.new .debug 3 12 wFp0 exSeed wKvs 99 16 9)
    (fun db₁ => width 16 9 ≤ db₁.entries.length ∧ db₁.getMatrixHeight = .ok 24 ∧
      (db₁.entries.getD 0 [])[1]? = some 266#32) (by decide +kernel)
  obtain ⟨db₂, h1', h2', h4'⟩ := exOk (KVDatabase.new .debug 3 12 wFp0 exSeed (List.zipWith (fun k v => ⟨k, v⟩) exKeys
      [[301#32, 7#32], [0#32, 511#32], [1#32, 64#32]]) 99 16 9)
    (fun db₂ => width 16 9 ≤ db₂.entries.length ∧ (db₂.entries.getD 0 [])[1]? ≠ some 266#32) (by decide +kernel)
  exact ⟨db₁, db₂, h1, h1', h2, h2', h3, ⟨1, by omega, by rw [h4]; exact fun h => h4' h.symm⟩, by decide +kernel⟩

end Chalamet
