import Verif.Props.Reveal
import Verif.Props.AbsentKeys
import Verif.Props.Serde
import Verif.Props.Witnesses

/-!
# C93 for key-value shards: several values with one query

The cells of a column are below `2^b`, so the sum of a key's three cells is below `2^(b+2)`: sums for several keys fit side by
side into one word.
-/

namespace Chalamet

open Spec

/-- The unencrypted query that reads the keys with the slots `ts`: weight `1` at the slots of the first, `2^c` at those of the
second, … -/
def Spec.packSlots (c m : Nat) : List (Nat × Nat × Nat) → List U32
  | [] => List.replicate m 0#32
  | (i, j, k) :: ts =>
    vadd ((List.replicate m 0#32).set i 1#32) (vadd ((List.replicate m 0#32).set j 1#32)
      (vadd ((List.replicate m 0#32).set k 1#32) ((packSlots c m ts).map fun x => BitVec.ofNat 32 (2 ^ c) * x)))

theorem packSlots_length (c m : Nat) (ts : List (Nat × Nat × Nat)) : (packSlots c m ts).length = m := by
  induction ts with
  | nil => simp [packSlots]
  | cons t ts ih => simp [packSlots, vadd, ih]

/-- The sum of three cells. -/
def cellSum (l : List U32) (t : Nat × Nat × Nat) : Nat :=
  (l.getD t.1 0#32).toNat + (l.getD t.2.1 0#32).toNat + (l.getD t.2.2 0#32).toNat

/-- The sums side by side. -/
def cellSums (c : Nat) (l : List U32) : List (Nat × Nat × Nat) → Nat
  | [] => 0
  | t :: ts => cellSum l t + 2 ^ c * cellSums c l ts

theorem dot_packSlots {c m : Nat} {l : List U32} (hl : l.length = m) (ts : List (Nat × Nat × Nat))
    (ht : ∀ t ∈ ts, t.1 < m ∧ t.2.1 < m ∧ t.2.2 < m) :
    (dot (packSlots c m ts) l).toNat = cellSums c l ts % 2 ^ 32 := by
  induction ts with
  | nil => simp [packSlots, dot_zeros, cellSums]
  | cons t ts ih =>
    obtain ⟨i, j, k⟩ := t
    obtain ⟨h1, h2, h3⟩ := ht (i, j, k) (by simp)
    have ih := ih fun t h => ht t (by simp [h])
    rw [packSlots, dot_vadd_left (by simp [vadd, packSlots_length]), dot_vadd_left (by simp [vadd, packSlots_length]),
      dot_vadd_left (by simp [packSlots_length]), dot_unit hl h1, dot_unit hl h2, dot_unit hl h3, dot_scale]
    simp only [BitVec.toNat_add, BitVec.toNat_mul, BitVec.toNat_ofNat, ih, cellSums, cellSum]
    rw [← Nat.mul_mod]
    generalize 2 ^ c * cellSums c l ts = X
    omega

theorem cellSums_digit {b c : Nat} (hbc : b ≤ c) {l : List U32} (ts : List (Nat × Nat × Nat))
    (hs : ∀ t ∈ ts, cellSum l t < 2 ^ c) (n : Nat) (hn : n < ts.length) :
    cellSums c l ts / 2 ^ (c * n) % 2 ^ b = cellSum l ts[n] % 2 ^ b := by
  induction ts generalizing n with
  | nil => simp at hn
  | cons t ts ih =>
    cases n with
    | zero =>
      rw [cellSums, Nat.mul_zero, Nat.pow_zero, Nat.div_one, List.getElem_cons_zero]
      obtain ⟨d, rfl⟩ := Nat.exists_eq_add_of_le hbc
      rw [Nat.pow_add, Nat.mul_assoc, Nat.add_mul_mod_self_left]
    | succ n =>
      rw [cellSums, List.getElem_cons_succ, ← ih (fun t h => hs t (by simp [h])) n (by simpa using hn), Nat.mul_succ,
        Nat.add_comm (c * n) c, Nat.pow_add, ← Nat.div_div_eq_div_mul, Nat.add_mul_div_left _ _ (Nat.two_pow_pos c),
        Nat.div_eq_of_lt (hs t (by simp)), Nat.zero_add]

/-- **C93 (keywords).** For every list of keys with `(b + 2) * k ≤ 34` there is a query, depending only on the keys and the
published parameters, from whose answer the values of all these keys can be read off: block `t` of `b + 2` bits of the `j`-th
word and the fingerprint of the key give digit `j` of its value. (As in C04: the keys hash differently from every later one; in
release builds no slot carries 64 or more keys.) -/
theorem C93_kv_one_query_reads_many (prof : Profile) (fp : FilterParams) (b N : Nat) (hb1 : 1 ≤ b) (hb : b ≤ 31)
    (keys : List Key) (hk : (b + 2) * keys.length ≤ 34) :
    ∃ q : List U32, ∀ (prg : Prg) (pseed : List U8) (segExp cap0 : Nat) (fp0 : Nat → Nat → U32) (seed : List U8)
        (kvs : List KeyValue) (n m T : Nat) (shard : KVShard),
      KVShard.new prof prg pseed segExp cap0 fp0 seed kvs n m T b = .ok shard →
      shard.baseParams.filterParams = fp → shard.baseParams.m = N → T < 2 ^ 64 → (∀ kv ∈ kvs, kv.value.length = width T b) →
      (prof = .debug ∨ ∀ s, slotLoad seed fp.geom (kvs.map (·.key)) s < 64) →
      ∃ (bytes : List U8) (resp : List U32), shard.respond q = .ok bytes ∧ bincodeDeserialize bytes = .ok resp ∧
        resp.length = width T b ∧
        ∀ t (ht : t < keys.length) i (hi : i < kvs.length), kvs[i].key = keys[t] →
          (∀ k (hk : k < kvs.length), i < k → mix256 kvs[k].key seed ≠ mix256 kvs[i].key seed) →
          ∀ j (hj : j < resp.length), ∃ (fpr : U64) (hv : j < kvs[i].value.length),
            BinaryFuseP32.getKeyFingerprint keys[t] fp.seed (BitVec.ofNat 64 j) = .ok fpr ∧
            (resp[j].toNat / 2 ^ ((b + 2) * t) + fpr.toNat) % 2 ^ b = kvs[i].value[j].toNat % 2 ^ b := by
  let ev : Key → Nat × Nat × Nat := fun key =>
    match fp.getHashEvals prof key with
    | .ok [i, j, k] => (i, j, k)
    | _ => (0, 0, 0)
  refine ⟨packSlots (b + 2) N (keys.map ev), ?_⟩
  intro prg pseed segExp cap0 fp0 seed kvs n m T shard hsh hfp hN hT hval hload
  subst hfp hN
  obtain ⟨hcl, ⟨h0, hel⟩, hresp⟩ := C70_kv_respond prof prg pseed segExp cap0 fp0 seed kvs n m T b shard hb1 hsh
  have hwid : shard.db.entries.length = width T b := by rw [hel]; exact hval _ (List.getElem_mem h0)
  obtain ⟨hdb, hfpe⟩ := kvShard_db hsh
  obtain ⟨height, _, _, _, hev, hcols⟩ := C37_shared_geometry prof segExp cap0 fp0 seed kvs m T b hb shard.db hdb
  have hpos : 0 < shard.db.entries.length := by
    obtain ⟨_, _, _, _, _, h, _⟩ := kvShard_shape hsh
    exact h
  have hheight : height = shard.baseParams.m := by
    rw [← (hcols _ (List.getElem_mem hpos)).1]
    exact hcl _ (List.getElem_mem hpos)
  have hslot : ∀ key, ∃ i j k, shard.baseParams.filterParams.getHashEvals prof key = .ok [i, j, k] ∧ ev key = (i, j, k) ∧
      i < shard.baseParams.m ∧ j < shard.baseParams.m ∧ k < shard.baseParams.m := by
    intro key
    obtain ⟨i, j, k, h, h1, h2, h3, _⟩ := hev key
    rw [← hfpe] at h
    refine ⟨i, j, k, h, ?_, by omega, by omega, by omega⟩
    show (match shard.baseParams.filterParams.getHashEvals prof key with
      | .ok [i, j, k] => (i, j, k)
      | _ => (0, 0, 0)) = _
    rw [h]
  have hts : ∀ t ∈ keys.map ev, t.1 < shard.baseParams.m ∧ t.2.1 < shard.baseParams.m ∧ t.2.2 < shard.baseParams.m := by
    intro t h
    obtain ⟨key, _, rfl⟩ := List.mem_map.1 h
    obtain ⟨i, j, k, _, e, h1, h2, h3⟩ := hslot key
    rw [e]
    exact ⟨h1, h2, h3⟩
  have hr := (hresp (packSlots (b + 2) shard.baseParams.m (keys.map ev))).1 ⟨packSlots_length _ _ _, by omega⟩
  refine ⟨_, _, hr, by
    have := (C22_response_round_trip ((shard.db.entries.take (width T b)).map fun col =>
      dot (packSlots (b + 2) shard.baseParams.m (keys.map ev)) col) (by
        have := width_le T b hb1
        simp; omega)).1 []
    simpa using this, by simp [hwid], ?_⟩
  intro t ht i hi hkey hlast j hj
  have hj' : j < shard.db.entries.length := by simp at hj; omega
  have hjv : j < kvs[0].value.length := by rw [← hel]; exact hj'
  obtain ⟨col, hv, hrow, hcv⟩ := C90_kv_local_lookup prof prg pseed segExp cap0 fp0 seed kvs n m T b hb shard hsh
    hload i hi hlast j hjv
  obtain ⟨i₁, i₂, i₃, fpr, e1, l1, l2, l3, e2, e3⟩ := hcv
  rw [hkey] at e1 e2
  rw [show shard.db.getRow j = .ok shard.db.entries[j] from rd_ok hj'] at hrow
  cases hrow
  refine ⟨fpr, hv, e2, ?_⟩
  have hc : shard.db.entries[j].length = shard.baseParams.m := hcl _ (List.getElem_mem hj')
  have hcell : ∀ x ∈ shard.db.entries[j], x.toNat < 2 ^ b := (hcols _ (List.getElem_mem hj')).2.1
  have hsum : ∀ t ∈ keys.map ev, cellSum shard.db.entries[j] t < 2 ^ (b + 2) := by
    intro t h
    obtain ⟨h1, h2, h3⟩ := hts t h
    unfold cellSum
    rw [getD_lt (by omega), getD_lt (by omega), getD_lt (by omega)]
    have c1 := hcell _ (List.getElem_mem (show t.1 < shard.db.entries[j].length by omega))
    have c2 := hcell _ (List.getElem_mem (show t.2.1 < shard.db.entries[j].length by omega))
    have c3 := hcell _ (List.getElem_mem (show t.2.2 < shard.db.entries[j].length by omega))
    have : 2 ^ (b + 2) = 2 ^ b * 4 := by rw [Nat.pow_add]
    omega
  have hdig := cellSums_digit (b := b) (c := b + 2) (by omega) (keys.map ev) hsum t (by simpa using ht)
  rw [List.getElem_map] at hdig
  have hevt : ev keys[t] = (i₁, i₂, i₃) := by
    obtain ⟨i, j, k, h, e, _⟩ := hslot keys[t]
    rw [e1] at h
    cases h
    exact e
  rw [hevt] at hdig
  have hval : (((List.map (fun col => dot (packSlots (b + 2) shard.baseParams.m (keys.map ev)) col)
      shard.db.entries).take (width T b))[j]'hj).toNat = cellSums (b + 2) shard.db.entries[j] (keys.map ev) % 2 ^ 32 := by
    rw [List.getElem_take, List.getElem_map]
    exact dot_packSlots hc _ hts
  rw [hval]
  have htb : (b + 2) * t + b ≤ 32 := by
    have : (b + 2) * (t + 1) ≤ (b + 2) * keys.length := Nat.mul_le_mul_left _ ht
    rw [Nat.mul_succ] at this
    omega
  have hmod : cellSums (b + 2) shard.db.entries[j] (keys.map ev) % 2 ^ 32 / 2 ^ ((b + 2) * t) % 2 ^ b =
      cellSums (b + 2) shard.db.entries[j] (keys.map ev) / 2 ^ ((b + 2) * t) % 2 ^ b := by
    obtain ⟨d, hd⟩ := Nat.exists_eq_add_of_le htb
    rw [hd, Nat.add_assoc, Nat.pow_add, Nat.mod_mul_right_div_self, Nat.pow_add, Nat.mod_mul_right_mod]
  rw [e3, Nat.add_mod, hmod, hdig]
  unfold cellSum
  simp only
  rw [← Nat.add_mod]

/-- Non-vacuity of C93 (keywords): a shard whose published parameters, loads and values are as assumed (`b = 9`), and two of its
keys, which fit. -/
example : ∃ shard, KVShard.new .debug wPrg [7#8] 3 12 wFp0 exSeed wKvs 2 99 16 9 = .ok shard ∧
    (∀ kv ∈ wKvs, kv.value.length = width 16 9) ∧ (9 + 2) * (exKeys.take 2).length ≤ 34 := by
  obtain ⟨shard, _, _, h, _, hv, _⟩ := wKv
  exact ⟨shard, h, hv, by decide⟩

end Chalamet
