import Verif.Props.KvReveal
import Verif.Props.Build
import Verif.Props.Witnesses

/-!
# C93 for key-value databases: no query reads more than 32 bits per column

Also C62: whether a key-value shard can be built does not depend on the values.
-/

namespace Chalamet
open Spec

/-- **C62 (values play no part).** If a key-value shard is built from some pairs, one is built from any pairs with the same keys and
values of the same length, with any initial contents of the arrays; its filter parameters and its sizes are the same. -/
theorem C62_values_play_no_part (prof : Profile) (prg : Prg) (pseed : List U8) (segExp cap0 : Nat) (fp0 fp0' : Nat → Nat → U32)
    (seed : List U8) (kvs kvs' : List KeyValue) (n m T b : Nat) (hb1 : 1 ≤ b) (hb : b ≤ 31) (shard : KVShard)
    (hsh : KVShard.new prof prg pseed segExp cap0 fp0 seed kvs n m T b = .ok shard)
    (hval : ∀ kv ∈ kvs, kv.value.length = width T b) (hval' : ∀ kv ∈ kvs', kv.value.length = width T b)
    (hkeys : kvs'.map (·.key) = kvs.map (·.key)) :
    ∃ shard', KVShard.new prof prg pseed segExp cap0 fp0' seed kvs' n m T b = .ok shard' ∧
      shard'.baseParams.filterParams = shard.baseParams.filterParams ∧ shard'.baseParams.m = shard.baseParams.m ∧
      shard'.baseParams.rhs.length = shard.baseParams.rhs.length := by
  have hlen : kvs'.length = kvs.length := by simpa using congrArg List.length hkeys
  obtain ⟨hdb, -⟩ := kvShard_db hsh
  obtain ⟨lay, p, w, h0, hwv, hw0, hlay, hp, hfp, -, -, -, hel, hcols⟩ := kvNew_ok hdb
  have hw : w = width T b := by rw [hwv]; exact hval _ (List.getElem_mem _)
  have h2b : 2 ^ b < 2 ^ 32 := Nat.pow_lt_pow_right (by omega) (by omega)
  have hpe : p = BitVec.ofNat 64 (2 ^ b) := by
    have := pow2U64_val hb hp
    apply BitVec.eq_of_toNat_eq
    rw [this, BitVec.toNat_ofNat, Nat.mod_eq_of_lt (by omega)]
  have hlay' : bfLayout kvs'.length segExp cap0 = .ok lay := by rw [hlen]; exact hlay
  obtain ⟨shard', h'⟩ := kvShard_of_columns (prof := prof) (prg := prg) (pseed := pseed) (fp0 := fp0') (seed := seed)
    (kvs := kvs') (n := n) (m := m) (T := T) (b := b) hb1 hb (by omega) (by intro h; rw [h] at hlen; simp at hlen; omega)
    hval' hlay' (by
      intro j hj
      obtain ⟨data, f, hdl, -, hf, -⟩ := hcols j (by omega)
      have hd' := mapRes_ok_of_forall (f := fun kv : KeyValue => rd kv.value j)
        (g := fun kv => kv.value.getD j 0#32) (l := kvs') (by
          intro kv hkv
          have hl := hval' kv hkv
          rw [rd_ok (by omega), getD_lt (by omega)])
      have hsame := C38_columns_together prof segExp cap0 (fp0 j) (fp0' j) seed (kvs.map (·.key)) data
        (kvs'.map fun kv => kv.value.getD j 0#32) (BitVec.ofNat 64 j) (BitVec.ofNat 64 j) p (by simpa using hdl) (by simpa using hlen)
      rw [hf] at hsame
      cases hf' : BinaryFuseP32.fromSlice prof segExp cap0 (fp0' j) seed (kvs.map (·.key))
          (kvs'.map fun kv => kv.value.getD j 0#32) (BitVec.ofNat 64 j) p with
      | ok f' =>
        obtain ⟨_, _, _, _, _, _, _, _, hpm⟩ := fromSlice_wf hf'
        refine ⟨f', ?_, by rw [hpm, hpe]⟩
        unfold columnFilter
        rw [hd', Res.bind_ok, hp, Res.bind_ok, hkeys, hf']
        rfl
      | err e => rw [hf'] at hsame; simp [Res.shape] at hsame
      | panic => rw [hf'] at hsame; simp [Res.shape] at hsame
      | diverge => rw [hf'] at hsame; simp [Res.shape] at hsame)
  obtain ⟨l1, e1, m1, -, -, -, -, -, -, -, f1, -, -, -⟩ := kvShard_shape hsh
  obtain ⟨l2, e2, m2, -, -, -, -, -, -, -, f2, -, -, -⟩ := kvShard_shape h'
  rw [hlay] at e1
  rw [hlay'] at e2
  cases e1
  cases e2
  obtain ⟨-, r1, -⟩ := C71_kv_sizes prof prg pseed segExp cap0 fp0 seed kvs n m T b shard hb1 hb hsh
  obtain ⟨-, r2, -⟩ := C71_kv_sizes prof prg pseed segExp cap0 fp0' seed kvs' n m T b shard' hb1 hb h'
  exact ⟨shard', h', by rw [f1, f2], by rw [m1, m2], by rw [r1, r2]⟩

/-- The pairs with the first digit of the values at the positions `is` replaced. -/
def Spec.withFirst (kvs : List KeyValue) (is : List Nat) {k N : Nat} (x : Fin k → Fin N) : List KeyValue :=
  kvs.zipIdx.map fun ki => if h : is.idxOf ki.2 < k then ⟨ki.1.key, ki.1.value.set 0 (BitVec.ofNat 32 (x ⟨is.idxOf ki.2, h⟩).val)⟩ else ki.1

theorem withFirst_length (kvs : List KeyValue) (is : List Nat) {k N : Nat} (x : Fin k → Fin N) :
    (withFirst kvs is x).length = kvs.length := by simp [withFirst]

theorem withFirst_getElem (kvs : List KeyValue) (is : List Nat) {k N : Nat} (x : Fin k → Fin N) (i : Nat)
    (h : i < (withFirst kvs is x).length) (h' : i < kvs.length) :
    (withFirst kvs is x)[i] = if h : is.idxOf i < k then
      ⟨kvs[i].key, kvs[i].value.set 0 (BitVec.ofNat 32 (x ⟨is.idxOf i, h⟩).val)⟩ else kvs[i] := by
  simp [withFirst]

theorem withFirst_keys (kvs : List KeyValue) (is : List Nat) {k N : Nat} (x : Fin k → Fin N) :
    (withFirst kvs is x).map (·.key) = kvs.map (·.key) := by
  apply List.ext_getElem (by simp [withFirst])
  intro i h1 h2
  rw [List.getElem_map, List.getElem_map, withFirst_getElem kvs is x i (by simpa using h1) (by simpa using h2)]
  split <;> rfl

theorem withFirst_value (kvs : List KeyValue) (is : List Nat) {k N w : Nat} (x : Fin k → Fin N)
    (hval : ∀ kv ∈ kvs, kv.value.length = w) : ∀ kv ∈ withFirst kvs is x, kv.value.length = w := by
  intro kv hkv
  obtain ⟨i, hi, rfl⟩ := List.getElem_of_mem hkv
  rw [withFirst_getElem kvs is x i hi (by simpa [withFirst] using hi)]
  split
  · simpa using hval _ (List.getElem_mem _)
  · exact hval _ (List.getElem_mem _)

/-- Columns of shards built from pairs whose keys and whose digits `j` agree are the same. -/
theorem kvColumn_congr {prof : Profile} {segExp cap0 : Nat} {fp0 : Nat → Nat → U32} {seed : List U8} {kvs kvs' : List KeyValue}
    {m T b : Nat} {db db' : KVDatabase}
    (h : KVDatabase.new prof segExp cap0 fp0 seed kvs m T b = .ok db)
    (h' : KVDatabase.new prof segExp cap0 fp0 seed kvs' m T b = .ok db')
    (hkeys : kvs'.map (·.key) = kvs.map (·.key)) (j : Nat) (hj : j < db.entries.length) (hj' : j < db'.entries.length)
    (hd : ∀ i (hi : i < kvs.length) (hi' : i < kvs'.length), kvs[i].value[j]? = kvs'[i].value[j]?) :
    db.entries[j] = db'.entries[j] := by
  have hlen : kvs'.length = kvs.length := by simpa using congrArg List.length hkeys
  obtain ⟨lay, p, w, h0, hwv, hw0, hlay, hp, hfp, -, -, -, hel, hcols⟩ := kvNew_ok h
  obtain ⟨lay2, p2, w2, g0, gwv, gw0, glay, gp, gfp, -, -, -, gel, gcols⟩ := kvNew_ok h'
  rw [hp] at gp
  cases gp
  obtain ⟨data, f, hdl, hdv, hF, -, -, -, hpub, -⟩ := hcols j hj
  obtain ⟨data', f', hdl', hdv', hF', -, -, -, hpub', -⟩ := gcols j hj'
  have hdd : data' = data := by
    apply List.ext_getElem (by omega)
    intro i h1 h2
    obtain ⟨l1, e1⟩ := hdv i (by omega) h2
    obtain ⟨l2, e2⟩ := hdv' i (by omega) h1
    have := hd i (by omega) (by omega)
    rw [List.getElem?_eq_getElem l1, List.getElem?_eq_getElem l2, Option.some.injEq] at this
    rw [e1, e2, this]
  rw [hkeys, hdd, hF] at hF'
  cases hF'
  rw [hpub] at hpub'
  exact Res.ok.inj hpub'

/-- **C93 (keywords, at most).** No query reads the values of more keys than `32 / b`: take any pairs from which a shard can be
built, any vector `q` and any positions with `b * k > 32`. There are two lists of pairs that agree with the given ones except for the
values at these positions, and with each other except for the first digit there, which is different for one of them (and below
`2^b`); shards are built from both, with the same published filter parameters, and they give the same response to `q`. -/
theorem C93_kv_no_query_reads_more (prof : Profile) (prg : Prg) (pseed : List U8) (segExp cap0 : Nat) (fp0 : Nat → Nat → U32)
    (seed : List U8) (kvs : List KeyValue) (n m T b : Nat) (hb1 : 1 ≤ b) (hb : b ≤ 31) (shard : KVShard)
    (hsh : KVShard.new prof prg pseed segExp cap0 fp0 seed kvs n m T b = .ok shard)
    (hval : ∀ kv ∈ kvs, kv.value.length = width T b) (q : List U32) (is : List Nat) (hnd : is.Nodup)
    (hi : ∀ i ∈ is, i < kvs.length) (hk : 32 < b * is.length) :
    ∃ (kvs₁ kvs₂ : List KeyValue) (s₁ s₂ : KVShard),
      kvs₁.map (·.key) = kvs.map (·.key) ∧ kvs₂.map (·.key) = kvs.map (·.key) ∧
      (∀ i, i ∉ is → kvs₁[i]? = kvs[i]? ∧ kvs₂[i]? = kvs[i]?) ∧
      (∃ i ∈ is, ∃ (h₁ : i < kvs₁.length) (h₂ : i < kvs₂.length) (d₁ d₂ : U32), kvs₁[i].value[0]? = some d₁ ∧
        kvs₂[i].value[0]? = some d₂ ∧ d₁.toNat < 2 ^ b ∧ d₂.toNat < 2 ^ b ∧ d₁ ≠ d₂) ∧
      (∀ i j, 0 < j → ∀ (h₁ : i < kvs₁.length) (h₂ : i < kvs₂.length), kvs₁[i].value[j]? = kvs₂[i].value[j]?) ∧
      KVShard.new prof prg pseed segExp cap0 fp0 seed kvs₁ n m T b = .ok s₁ ∧
      KVShard.new prof prg pseed segExp cap0 fp0 seed kvs₂ n m T b = .ok s₂ ∧
      s₁.baseParams.filterParams = shard.baseParams.filterParams ∧ s₂.baseParams.filterParams = shard.baseParams.filterParams ∧
      s₁.respond q = s₂.respond q := by
  have hex := fun x : Fin is.length → Fin (2 ^ b) => C62_values_play_no_part prof prg pseed segExp cap0 fp0 fp0 seed kvs
    (withFirst kvs is x) n m T b hb1 hb shard hsh hval (withFirst_value kvs is x hval) (withFirst_keys kvs is x)
  choose sh hshx hfpx hmx _ using hex
  obtain ⟨x, y, hxy, heq⟩ := Fintype.exists_ne_map_eq_of_card_lt
    (fun x : Fin is.length → Fin (2 ^ b) => (dot q ((sh x).db.entries.getD 0 [])).toFin) (by
      simp only [Fintype.card_fun, Fintype.card_fin]
      rw [← Nat.pow_mul]
      exact Nat.pow_lt_pow_right (by omega) hk)
  have hw0 : 0 < width T b := by
    obtain ⟨hdb, -⟩ := kvShard_db hsh
    obtain ⟨-, -, w, h0, hwv, hw0, -⟩ := kvNew_ok hdb
    rw [hwv, hval _ (List.getElem_mem _)] at hw0
    exact hw0
  have hT0 : 0 < T := by
    rcases Nat.eq_zero_or_pos T with rfl | h
    · exact absurd hw0 (by unfold width; rw [Nat.zero_add, Nat.div_eq_of_lt (by omega)]; omega)
    · exact h
  have hlt : (2 : Nat) ^ b ≤ 2 ^ 31 := Nat.pow_le_pow_right (by omega) hb
  have hrest : ∀ i j, 0 < j → ∀ (h₁ : i < (withFirst kvs is x).length) (h₂ : i < (withFirst kvs is y).length),
      (withFirst kvs is x)[i].value[j]? = (withFirst kvs is y)[i].value[j]? := by
    intro i j hj h₁ h₂
    have h0 : i < kvs.length := by simpa [withFirst] using h₁
    rw [withFirst_getElem kvs is x i h₁ h0, withFirst_getElem kvs is y i h₂ h0]
    split
    · simp only
      rw [List.getElem?_set_ne (by omega), List.getElem?_set_ne (by omega)]
    · rfl
  refine ⟨withFirst kvs is x, withFirst kvs is y, sh x, sh y, withFirst_keys _ _ _, withFirst_keys _ _ _, ?_, ?_, hrest,
    hshx x, hshx y, hfpx x, hfpx y, ?_⟩
  · intro i hni
    have hno : ∀ z : Fin is.length → Fin (2 ^ b), (withFirst kvs is z)[i]? = kvs[i]? := by
      intro z
      by_cases hil : i < kvs.length
      · rw [List.getElem?_eq_getElem (by rw [withFirst_length]; exact hil), List.getElem?_eq_getElem hil,
          withFirst_getElem kvs is z i _ hil, dif_neg (by rw [List.idxOf_lt_length_iff]; exact hni)]
      · rw [List.getElem?_eq_none (by rw [withFirst_length]; omega), List.getElem?_eq_none (by omega)]
    exact ⟨hno x, hno y⟩
  · obtain ⟨t, ht⟩ := Function.ne_iff.1 hxy
    have hit := hi is[t.val] (List.getElem_mem _)
    have hidx : is.idxOf is[t.val] = t.val := hnd.idxOf_getElem _ _
    have hd : ∀ (z : Fin is.length → Fin (2 ^ b)) (h : is[t.val] < (withFirst kvs is z).length),
        (withFirst kvs is z)[is[t.val]].value[0]? = some (BitVec.ofNat 32 (z t).val) := by
      intro z h
      rw [withFirst_getElem kvs is z _ h hit, dif_pos (by rw [hidx]; exact t.isLt)]
      simp only [hidx]
      rw [List.getElem?_set_self (by rw [hval _ (List.getElem_mem _)]; exact hw0)]
    have hv : ∀ z : Fin is.length → Fin (2 ^ b), (BitVec.ofNat 32 (z t).val).toNat = (z t).val := by
      intro z
      rw [BitVec.toNat_ofNat]
      exact Nat.mod_eq_of_lt (by have := (z t).isLt; omega)
    refine ⟨is[t.val], List.getElem_mem _, by rw [withFirst_length]; exact hit, by rw [withFirst_length]; exact hit, _, _,
      hd x _, hd y _, by rw [hv]; exact (x t).isLt, by rw [hv]; exact (y t).isLt, ?_⟩
    intro hcon
    have := congrArg BitVec.toNat hcon
    rw [hv, hv] at this
    exact ht (Fin.ext this)
  · obtain ⟨c1, ⟨_, l1⟩, r1⟩ := C70_kv_respond prof prg pseed segExp cap0 fp0 seed _ n m T b _ hb1 (hshx x)
    obtain ⟨c2, ⟨_, l2⟩, r2⟩ := C70_kv_respond prof prg pseed segExp cap0 fp0 seed _ n m T b _ hb1 (hshx y)
    rw [withFirst_value kvs is x hval _ (List.getElem_mem _)] at l1
    rw [withFirst_value kvs is y hval _ (List.getElem_mem _)] at l2
    by_cases hql : q.length = shard.baseParams.m
    · rw [(r1 q).1 ⟨by rw [hmx]; exact hql, by omega⟩, (r2 q).1 ⟨by rw [hmx]; exact hql, by omega⟩]
      congr 2
      apply List.ext_getElem (by simp [l1, l2])
      intro j h1 h2
      have hj1 : j < (sh x).db.entries.length := by simp at h1; omega
      have hj2 : j < (sh y).db.entries.length := by omega
      rw [List.getElem_map, List.getElem_map, List.getElem_take, List.getElem_take]
      rcases Nat.eq_zero_or_pos j with rfl | hj
      · have := heq
        simp only [getD_lt hj1, getD_lt hj2] at this
        exact BitVec.eq_of_toFin_eq this
      · rw [kvColumn_congr (kvShard_db (hshx x)).1 (kvShard_db (hshx y)).1
          (by rw [withFirst_keys, withFirst_keys]) j hj1 hj2 (fun i h₁ h₂ => hrest i j hj h₁ h₂)]
    · rw [(r1 q).2 hT0 (Or.inl (by rw [hmx]; exact hql)), (r2 q).2 hT0 (Or.inl (by rw [hmx]; exact hql))]

/-- Non-vacuity: 20-bit digits, three pairs; 60 bits do not fit in one answer word per column. -/
example : ∃ shard, KVShard.new .debug wPrg [7#8] 3 12 wFp0 exSeed wKvs 2 99 40 20 = .ok shard ∧
    (∀ kv ∈ wKvs, kv.value.length = width 40 20) ∧ [0, 2].Nodup ∧ (∀ i ∈ [0, 2], i < wKvs.length) ∧ 32 < 20 * [0, 2].length :=
  exOk _ _ (by decide +kernel)

end Chalamet
