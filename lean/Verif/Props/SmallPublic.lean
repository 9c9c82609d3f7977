import Verif.Props.Session
import Verif.Props.KvAccess
import Verif.Lemmas.Unimodular

/-!
# C122: databases with fewer records than the LWE dimension are given away by the published parameters
-/

namespace Chalamet
open Spec

theorem dot_ofFn_sum {n : Nat} (u v : Fin n → U32) : dot (List.ofFn u) (List.ofFn v) = ∑ k, u k * v k := by
  induction n with
  | zero => simp [dot]
  | succ n ih => rw [List.ofFn_succ, List.ofFn_succ, dot, ih, Fin.sum_univ_succ]

/-- All but a share of `2^(m-n)` of the `m`-by-`n` matrices have weights that single out every row. -/
theorem good_matrices (n m : Nat) (hmn : m ≤ n) :
    ∃ good : Finset (Fin m → Fin n → Fin (2 ^ 32)), (2 ^ (n - m) - 1) * (2 ^ 32) ^ (m * n) ≤ 2 ^ (n - m) * good.card ∧
      ∀ A ∈ good, ∃ Wm : Fin n → Fin m → U32, ∀ r i,
        ∑ k, Wm k i * BitVec.ofFin (A r k) = if r = i then 1#32 else 0#32 := by
  classical
  let e : BitVec 32 ≃ Fin (2 ^ 32) := ⟨BitVec.toFin, BitVec.ofFin, fun _ => rfl, fun _ => rfl⟩
  let flip : Fin (2 ^ 32) ≃ Fin (2 ^ 32) := e.symm.trans ((Equiv.addRight 1).trans e)
  let p : Fin (2 ^ 32) → ZMod 2 := fun x => parity (BitVec.ofFin x)
  have hflip : ∀ x, p (flip x) = p x + 1 := by
    intro x
    show parity (BitVec.ofFin x + 1) = parity (BitVec.ofFin x) + 1
    rw [map_add, map_one]
  have hbad := card_dependent p flip hflip m n
  refine ⟨Finset.univ.filter fun A => ¬ ∃ c : Fin m → ZMod 2, c ≠ 0 ∧ ∀ k, ∑ j, c j * p (A j k) = 0, ?_, ?_⟩
  · have htot := Finset.card_filter_add_card_filter_not (s := (Finset.univ : Finset (Fin m → Fin n → Fin (2 ^ 32))))
      (fun A => ∃ c : Fin m → ZMod 2, c ≠ 0 ∧ ∀ k, ∑ j, c j * p (A j k) = 0)
    have hall : (Finset.univ : Finset (Fin m → Fin n → Fin (2 ^ 32))).card = (2 ^ 32) ^ (m * n) := by
      rw [Finset.card_univ, Fintype.card_fun, Fintype.card_fun, Fintype.card_fin, Fintype.card_fin, Fintype.card_fin, ← Nat.pow_mul,
        Nat.mul_comm n m]
    rw [hall] at htot
    rw [Fintype.card_fin] at hbad
    generalize (2 ^ 32) ^ (m * n) = P at *
    revert hbad htot
    generalize (Finset.filter (fun A : Fin m → Fin n → Fin (2 ^ 32) => ∃ c : Fin m → ZMod 2, c ≠ 0 ∧ ∀ k, ∑ j, c j * p (A j k) = 0)
      Finset.univ).card = bad
    generalize (Finset.filter (fun A : Fin m → Fin n → Fin (2 ^ 32) => ¬ ∃ c : Fin m → ZMod 2, c ≠ 0 ∧ ∀ k, ∑ j, c j * p (A j k) = 0)
      Finset.univ).card = good
    intro hbad htot
    have h2 : bad * 2 ^ (n - m) ≤ P := by
      have : 2 ^ m * (bad * 2 ^ (n - m)) ≤ 2 ^ m * P := by
        calc 2 ^ m * (bad * 2 ^ (n - m)) = bad * (2 ^ m * 2 ^ (n - m)) := by ring
          _ = bad * 2 ^ n := by rw [← Nat.pow_add, Nat.add_sub_cancel' hmn]
          _ ≤ _ := hbad
      exact Nat.le_of_mul_le_mul_left this (Nat.two_pow_pos m)
    rw [← htot, Nat.sub_mul, Nat.one_mul]
    generalize 2 ^ (n - m) = K at *
    have : K * (bad + good) = bad * K + K * good := by ring
    omega
  · intro A hA
    obtain ⟨Wm, hWm⟩ := right_inverse_of_independent (Matrix.of fun j k => BitVec.ofFin (A j k)) (by
      intro c hc
      by_contra hne
      refine (Finset.mem_filter.1 hA).2 ⟨c, hne, fun k => ?_⟩
      have := congrFun hc k
      simpa [Matrix.vecMul, dotProduct, Matrix.map_apply, Matrix.of_apply, p] using this)
    refine ⟨Wm, fun r i => ?_⟩
    have := congrFun (congrFun hWm r) i
    rw [Matrix.mul_apply, Matrix.one_apply] at this
    simp only [Matrix.of_apply] at this
    rw [Finset.sum_congr rfl fun k _ => mul_comm _ _]
    exact this

/-- **C122 (small databases are public).** Let the database have `m` records and the LWE dimension be `n ≥ m`. For all but a share of
`2^(m-n)` of the public matrices (the words of the generator under the public seed) there are weights `W`, computed from the matrix
alone, that turn the published parameters of every server, for every database, digit size and element size, into all digits of all
records: nobody has to send a query. -/
theorem C122_small_database_is_public (n m : Nat) (hmn : m ≤ n) :
    ∃ good : Finset (Fin m → Fin n → Fin (2 ^ 32)), (2 ^ (n - m) - 1) * (2 ^ 32) ^ (m * n) ≤ 2 ^ (n - m) * good.card ∧
      ∀ A ∈ good, ∃ W : List (List U32), W.length = m ∧
        ∀ (prof : Profile) (prg : Prg) (seed : List U8) (strs : List (List Char)) (T b : Nat) (shard : Shard), b ≤ 32 →
          (∀ (j : Fin m) (k : Fin n), prg seed (j.val * n + k.val) = BitVec.ofFin (A j k)) →
          Shard.fromBase64Strings prof prg seed strs n m T b = .ok shard →
          ∃ elems : List (List U8), elems.length = m ∧ (strs.take m).map b64Decode = elems.map Res.ok ∧
            shard.baseParams.rhs.length = width T b ∧
            ∀ i < m, ∀ j (hj : j < shard.baseParams.rhs.length),
              dot (W.getD i []) shard.baseParams.rhs[j] = BitVec.ofNat 32 (digit b (leNat (elems.getD i [])) j) := by
  obtain ⟨good, hcard, hgood⟩ := good_matrices n m hmn
  refine ⟨good, hcard, fun A hA => ?_⟩
  obtain ⟨Wm, hWm⟩ := hgood A hA
  refine ⟨List.ofFn fun i : Fin m => List.ofFn fun k : Fin n => Wm k i, by simp, ?_⟩
  intro prof prg seed strs T b shard hb hprg h
  obtain ⟨hb1, hm0, elems, hl, hlm, hdec, _, hshard⟩ := shardInv hb h
  refine ⟨elems, hl, hdec, by rw [hshard]; simp [shardOf, rhsOf], ?_⟩
  intro i hi j hj
  have hgive := C122_parameters_give_away prof prg seed strs n m T b i shard hb h hi
    (List.ofFn fun k : Fin n => Wm k ⟨i, hi⟩) (by simp) (by
      have hpar : commonParamsFrom prg shard.baseParams.publicSeed shard.baseParams.dim shard.baseParams.m =
          (List.range m).map fun j => (List.range n).map fun k => prg seed (j * n + k) := by
        rw [hshard]; exact generateLwe_eq prg seed n m
      rw [hpar]
      intro r hr
      have hrm : r < m := by simpa using hr
      rw [List.getElem_map, List.getElem_range]
      have hrow : ((List.range n).map fun k => prg seed (r * n + k)) = List.ofFn fun k : Fin n => BitVec.ofFin (A ⟨r, hrm⟩ k) := by
        apply List.ext_getElem (by simp)
        intro k h1 h2
        simp only [List.getElem_map, List.getElem_range, List.getElem_ofFn]
        exact hprg ⟨r, hrm⟩ ⟨k, by simpa using h1⟩
      rw [hrow, dot_ofFn_sum]
      rw [hWm ⟨r, hrm⟩ ⟨i, hi⟩]
      simp only [Fin.mk.injEq])
  obtain ⟨e', he', -, hdig⟩ := hgive
  have hW : (List.ofFn fun i : Fin m => List.ofFn fun k : Fin n => Wm k i).getD i [] = List.ofFn fun k : Fin n => Wm k ⟨i, hi⟩ := by
    rw [getD_lt (by simpa using hi)]; simp
  have hee : e' = elems.getD i [] := by
    have hil : i < elems.length := by omega
    have := congrArg (fun l => l[i]?) hdec
    simp only [List.getElem?_map, List.getElem?_take, hi, if_true, List.getElem?_eq_getElem hil, Option.map_some] at this
    rw [he'] at this
    rw [getD_lt hil]
    exact Res.ok.inj (Option.some.inj this)
  rw [hW, hdig j hj, hee]

/-- **C122 (small key-value databases are public).** The same for key-value servers whose matrix has `M ≤ n` rows: the weights turn
the published parameters into every stored column, in which every stored pair can be read: the key's three cells and its fingerprint
add up to the digit of its value. -/
theorem C122_small_kv_database_is_public (n M : Nat) (hmn : M ≤ n) :
    ∃ good : Finset (Fin M → Fin n → Fin (2 ^ 32)), (2 ^ (n - M) - 1) * (2 ^ 32) ^ (M * n) ≤ 2 ^ (n - M) * good.card ∧
      ∀ A ∈ good, ∃ W : List (List U32), W.length = M ∧
        ∀ (prof : Profile) (prg : Prg) (pseed : List U8) (segExp cap0 : Nat) (fp0 : Nat → Nat → U32) (seed : List U8)
          (kvs : List KeyValue) (m T b : Nat) (shard : KVShard), 1 ≤ b → b ≤ 31 →
          (∀ (j : Fin M) (k : Fin n), prg pseed (j.val * n + k.val) = BitVec.ofFin (A j k)) →
          KVShard.new prof prg pseed segExp cap0 fp0 seed kvs n m T b = .ok shard → shard.baseParams.m = M →
          (∀ kv ∈ kvs, kv.value.length = width T b) →
          let read := fun j => (List.range M).map fun i => dot (W.getD i []) (shard.baseParams.rhs.getD j [])
          (∀ j < width T b, shard.db.getRow j = .ok (read j)) ∧
          ((prof = .debug ∨ ∀ s, slotLoad seed shard.baseParams.filterParams.geom (kvs.map (·.key)) s < 64) →
            ∀ i (hi : i < kvs.length), (∀ k (hk : k < kvs.length), i < k → mix256 kvs[k].key seed ≠ mix256 kvs[i].key seed) →
              ∀ j (hj : j < kvs[i].value.length),
                CellValue prof shard.baseParams.filterParams b kvs[i].key j (read j) (kvs[i].value[j].toNat % 2 ^ b)) := by
  obtain ⟨good, hcard, hgood⟩ := good_matrices n M hmn
  refine ⟨good, hcard, fun A hA => ?_⟩
  obtain ⟨Wm, hWm⟩ := hgood A hA
  refine ⟨List.ofFn fun i : Fin M => List.ofFn fun k : Fin n => Wm k i, by simp, ?_⟩
  intro prof prg pseed segExp cap0 fp0 seed kvs m T b shard hb1 hb hprg hsh hM hv read
  have hwid : ∀ kv ∈ kvs, width T b ≤ kv.value.length := fun kv h => (hv kv h).ge
  have hrow : ∀ j < width T b, shard.db.getRow j = .ok (read j) := by
    intro j hj
    obtain ⟨-, -, hrl, hle, c1, -⟩ := kvRhs_dot prof prg pseed segExp cap0 fp0 seed kvs n m T b hb1 shard hsh hwid
      (List.replicate n 0#32) (by simp)
    have hje : j < shard.db.entries.length := by omega
    have hcl := c1 _ (List.getElem_mem hje)
    unfold KVDatabase.getRow
    rw [rd_ok hje]
    congr 1
    apply List.ext_getElem (by simp [read, hcl, hM])
    intro i h1 h2
    have hi : i < M := by omega
    have hW : (List.ofFn fun i : Fin M => List.ofFn fun k : Fin n => Wm k i).getD i [] = List.ofFn fun k : Fin n => Wm k ⟨i, hi⟩ := by
      rw [getD_lt (by simpa using hi)]; simp
    obtain ⟨p1, p2, -, -, -, hd⟩ := kvRhs_dot prof prg pseed segExp cap0 fp0 seed kvs n m T b hb1 shard hsh hwid
      (List.ofFn fun k : Fin n => Wm k ⟨i, hi⟩) (by simp)
    simp only [read, List.getElem_map, List.getElem_range]
    rw [hW, getD_lt (l := shard.baseParams.rhs) (by omega), hd j (by omega) hje]
    have hu : ((commonParamsFrom prg shard.baseParams.publicSeed shard.baseParams.dim shard.baseParams.m).map fun row =>
        dot (List.ofFn fun k : Fin n => Wm k ⟨i, hi⟩) row) = (List.replicate M 0#32).set i 1#32 := by
      rw [p1, p2, hM]
      have hA : commonParamsFrom prg pseed n M = (List.range M).map fun j => (List.range n).map fun k => prg pseed (j * n + k) :=
        generateLwe_eq prg pseed n M
      rw [hA]
      apply List.ext_getElem (by simp)
      intro r h1 h2
      have hr : r < M := by simpa using h1
      rw [List.getElem_map, List.getElem_map, List.getElem_range, List.getElem_set, List.getElem_replicate]
      have hrow : ((List.range n).map fun k => prg pseed (r * n + k)) = List.ofFn fun k : Fin n => BitVec.ofFin (A ⟨r, hr⟩ k) := by
        apply List.ext_getElem (by simp)
        intro k h1 h2
        simp only [List.getElem_map, List.getElem_range, List.getElem_ofFn]
        exact hprg ⟨r, hr⟩ ⟨k, by simpa using h1⟩
      rw [hrow, dot_ofFn_sum, hWm ⟨r, hr⟩ ⟨i, hi⟩]
      simp only [Fin.mk.injEq]
      by_cases hri : r = i
      · simp [hri]
      · rw [if_neg hri, if_neg (Ne.symm hri)]
    rw [hu, dot_unit (by rw [hcl, hM]) hi, getD_lt h1]
  refine ⟨hrow, fun hload i hi hlast j hj => ?_⟩
  have hw : kvs[i].value.length = width T b := hv _ (List.getElem_mem hi)
  have h0 : kvs[0].value.length = width T b := hv _ (List.getElem_mem (by omega))
  obtain ⟨col, hv', hcol, hcell⟩ := C90_kv_local_lookup prof prg pseed segExp cap0 fp0 seed kvs n m T b hb shard hsh hload i hi hlast j
    (by omega)
  rw [hrow j (by omega)] at hcol
  rw [Res.ok.inj hcol]
  exact hcell

/-- The default LWE dimension (1774): all but one in `2^74` of the public matrices give away every database of 1700 records. -/
example : ∃ good : Finset (Fin 1700 → Fin 1774 → Fin (2 ^ 32)), good.Nonempty := by
  obtain ⟨good, h, -⟩ := C122_small_database_is_public 1774 1700 (by norm_num)
  refine ⟨good, Finset.card_pos.1 ?_⟩
  have h2 : 0 < (2 ^ (1774 - 1700) - 1) * (2 ^ 32) ^ (1700 * 1774) := Nat.mul_pos (by norm_num) (Nat.pow_pos (by norm_num))
  generalize (2 ^ 32) ^ (1700 * 1774) = P at *
  omega

/-- A key-value server of three pairs whose matrix (24 rows) has fewer rows than the LWE dimension (30). -/
example : ∃ shard, KVShard.new .debug wPrg [7#8] 3 12 wFp0 exSeed wKvs 30 99 44 22 = .ok shard ∧
    shard.baseParams.m = 24 ∧ 24 ≤ 30 ∧ (∀ kv ∈ wKvs, kv.value.length = width 44 22) :=
  exOk _ _ (by decide +kernel)

end Chalamet
