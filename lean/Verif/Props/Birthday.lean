import Verif.Lemmas.Birthday
import Verif.Props.Overload

/-! # C120: how often a key-value database cannot be built

`KVShard::new` takes the seed of its filters from the caller and never changes it on a retry, so two keys whose hashes
select the same three cells make it panic (C62). Here the tuples of key hashes for which that happens are counted. -/

namespace Chalamet
open Finset Spec

/-- The hypotheses of C62 in terms of the hashes. -/
theorem kv_hyps {N : Nat} {lay : Layout} (x : Fin N → Fin (2 ^ 64)) (hinj : Function.Injective x)
    (hload : ∀ s, cnt lay.geom (wordList x) s < 64) (filterSeed : List U8) (kvs : List KeyValue) (hkv : kvs.length = N)
    (hhash : ∀ i : Fin N, mix256 (kvs[i.val]'(hkv ▸ i.isLt)).key filterSeed = .ok (BitVec.ofFin (x i))) :
    (∀ s, slotLoad filterSeed lay.geom (kvs.map (·.key)) s < 64) ∧ (kvs.map fun kv => mix256 kv.key filterSeed).Nodup := by
  subst hkv
  have hmap : mapRes (fun k => mix256 k filterSeed) (kvs.map (·.key)) = .ok (wordList x) := by
    rw [mapRes_eq_ok, List.map_map]
    refine List.ext_getElem (by simp [wordList]) fun i h1 h2 => ?_
    rw [List.length_map] at h1
    rw [List.getElem_map, List.getElem_map]
    unfold wordList
    rw [List.getElem_ofFn]
    exact hhash ⟨i, h1⟩
  have hld : ∀ s, slotLoad filterSeed lay.geom (kvs.map (·.key)) s < 64 := by
    intro s
    rw [slotLoad_eq hmap]
    exact hload s
  have hnd : (kvs.map fun kv => mix256 kv.key filterSeed).Nodup := by
    rw [List.nodup_iff_pairwise_ne, List.pairwise_map, List.pairwise_iff_getElem]
    intro i j hi hj hij he
    have h1 := hhash ⟨i, hi⟩
    have h2 := hhash ⟨j, hj⟩
    simp only at h1 h2
    rw [he, h2] at h1
    have h4 := congrArg Fin.val (hinj (congrArg BitVec.toFin (Res.ok.inj h1)))
    simp only at h4
    omega
  exact ⟨hld, hnd⟩

/-- What the constructor does for keys with pairwise different hashes and no overloaded slot, in terms of the hashes. -/
theorem kv_outcome {N segExp cap0 : Nat} {lay : Layout} (hlay : bfLayout N segExp cap0 = .ok lay) (hN0 : 0 < N)
    (x : Fin N → Fin (2 ^ 64)) (hinj : Function.Injective x) (hload : ∀ s, cnt lay.geom (wordList x) s < 64)
    (prof : Profile) (filterSeed : List U8) (kvs : List KeyValue) (hkv : kvs.length = N) (hseed : filterSeed.length = 32)
    (hhash : ∀ i : Fin N, mix256 (kvs[i.val]'(hkv ▸ i.isLt)).key filterSeed = .ok (BitVec.ofFin (x i)))
    (prg : Prg) (pseed : List U8) (fp0 : Nat → Nat → U32) (n m T b : Nat) (hT0 : 0 < T) (hb1 : 1 ≤ b) (hb : b ≤ 31)
    (hdebug : prof = .debug → 8 ≤ b) (hw : ∀ kv ∈ kvs, kv.value.length = width T b) :
    ((∃ i j, i ≠ j ∧ ∀ t < 3, slotN lay.geom (BitVec.ofFin (x i)) t = slotN lay.geom (BitVec.ofFin (x j)) t) →
      KVShard.new prof prg pseed segExp cap0 fp0 filterSeed kvs n m T b = .panic) ∧
    (N = 2 → (∀ i j, i ≠ j → ∃ t < 3, slotN lay.geom (BitVec.ofFin (x i)) t ≠ slotN lay.geom (BitVec.ofFin (x j)) t) →
      ∃ shard, KVShard.new prof prg pseed segExp cap0 fp0 filterSeed kvs n m T b = .ok shard) := by
  subst hkv
  have hmap : mapRes (fun k => mix256 k filterSeed) (kvs.map (·.key)) = .ok (wordList x) := by
    rw [mapRes_eq_ok, List.map_map]
    refine List.ext_getElem (by simp [wordList]) fun i h1 h2 => ?_
    rw [List.length_map] at h1
    rw [List.getElem_map, List.getElem_map]
    unfold wordList
    rw [List.getElem_ofFn]
    exact hhash ⟨i, h1⟩
  have hld : ∀ s, slotLoad filterSeed lay.geom (kvs.map (·.key)) s < 64 := by
    intro s
    rw [slotLoad_eq hmap]
    exact hload s
  have hneq : ∀ i j : Fin kvs.length, i ≠ j → kvs[i.val].key ≠ kvs[j.val].key := by
    intro i j hij he
    have h1 := hhash i
    have h2 := hhash j
    rw [he, h2] at h1
    exact hij (hinj (congrArg BitVec.toFin (Res.ok.inj h1))).symm
  have hnd : (kvs.map fun kv => mix256 kv.key filterSeed).Nodup := by
    rw [List.nodup_iff_pairwise_ne, List.pairwise_map, List.pairwise_iff_getElem]
    intro i j hi hj hij he
    have h1 := hhash ⟨i, hi⟩
    have h2 := hhash ⟨j, hj⟩
    simp only at h1 h2
    rw [he, h2] at h1
    have h4 := congrArg Fin.val (hinj (congrArg BitVec.toFin (Res.ok.inj h1)))
    simp only at h4
    omega
  have hnd' : (kvs.map (·.key)).Nodup := by
    rw [List.nodup_iff_pairwise_ne, List.pairwise_map, List.pairwise_iff_getElem]
    intro i j hi hj hij
    exact hneq ⟨i, hi⟩ ⟨j, hj⟩ (by intro h; have := congrArg Fin.val h; simp only at this; omega)
  obtain ⟨c1, c2⟩ := C62_kv_build prof prg pseed segExp cap0 fp0 filterSeed kvs
    n m T b lay hT0 hb1 hb hdebug (by rintro rfl; simp at hN0) hw hlay hseed hld hnd
  have htouch : ∀ (i : Fin kvs.length) s, touchesP filterSeed lay.geom kvs[i.val].key s ↔
      ∃ t < 3, s = slotN lay.geom (BitVec.ofFin (x i)) t := by
    intro i s
    rw [← touchesP_iff (hhash i) s]
    unfold on
    rw [decide_eq_true_eq]
    constructor
    · rintro (h | h | h)
      · exact ⟨0, by omega, h⟩
      · exact ⟨1, by omega, h⟩
      · exact ⟨2, by omega, h⟩
    · rintro ⟨t, ht, h⟩
      obtain rfl | rfl | rfl : t = 0 ∨ t = 1 ∨ t = 2 := by omega
      · exact Or.inl h
      · exact Or.inr (Or.inl h)
      · exact Or.inr (Or.inr h)
  constructor
  · rintro ⟨i, j, hij, hs⟩
    refine c2 fun hp => (canPeel_iff_no_core _ _ hnd').1 hp ?_
    have hk := hneq i j hij
    refine ⟨[kvs[i.val].key, kvs[j.val].key], by simp, ?_, ?_⟩
    · intro k hk
      simp only [List.mem_cons, List.not_mem_nil, or_false] at hk
      rcases hk with rfl | rfl
      · exact List.mem_map.2 ⟨_, List.getElem_mem _, rfl⟩
      · exact List.mem_map.2 ⟨_, List.getElem_mem _, rfl⟩
    · intro k hk' s ht
      simp only [List.mem_cons, List.not_mem_nil, or_false] at hk'
      rcases hk' with rfl | rfl
      · obtain ⟨t, h3, e⟩ := (htouch i s).1 ht
        exact ⟨_, by simp, hk.symm, (htouch j s).2 ⟨t, h3, e.trans (hs t h3)⟩⟩
      · obtain ⟨t, h3, e⟩ := (htouch j s).1 ht
        exact ⟨_, by simp, hk, (htouch i s).2 ⟨t, h3, e.trans (hs t h3).symm⟩⟩
  · intro h2 hs
    refine c1 ((canPeel_iff_no_core _ _ hnd').2 ?_)
    rintro ⟨core, hne, hsub, hcore⟩
    obtain ⟨k0, hk0⟩ := List.exists_mem_of_ne_nil _ hne
    have hidx : ∀ k ∈ core, ∃ i : Fin kvs.length, kvs[i.val].key = k := by
      intro k hk
      obtain ⟨kv, hkv, rfl⟩ := List.mem_map.1 (hsub k hk)
      obtain ⟨i, hi, rfl⟩ := List.mem_iff_getElem.1 hkv
      exact ⟨⟨i, hi⟩, rfl⟩
    obtain ⟨i, rfl⟩ := hidx k0 hk0
    -- the only other key
    have hother : ∀ j j' : Fin kvs.length, j ≠ i → j' ≠ i → j = j' := by
      intro j j' h1 h1'
      have a1 := j.isLt
      have a2 := j'.isLt
      have a3 := i.isLt
      have b1 : j.val ≠ i.val := fun h => h1 (Fin.ext h)
      have b2 : j'.val ≠ i.val := fun h => h1' (Fin.ext h)
      exact Fin.ext (by omega)
    obtain ⟨k', hk', hne', _⟩ := hcore _ hk0 _ ((htouch i _).2 ⟨0, by omega, rfl⟩)
    obtain ⟨j, rfl⟩ := hidx k' hk'
    have hji : j ≠ i := by rintro rfl; exact hne' rfl
    obtain ⟨t, ht, hdiff⟩ := hs i j hji.symm
    obtain ⟨k2, hk2, hne2, ht2⟩ := hcore _ hk0 _ ((htouch i _).2 ⟨t, ht, rfl⟩)
    obtain ⟨j2, rfl⟩ := hidx k2 hk2
    have hj2 : j2 ≠ i := by rintro rfl; exact hne2 rfl
    obtain rfl := hother j j2 hji hj2
    obtain ⟨t', ht', e⟩ := (htouch j _).1 ht2
    obtain ⟨s, hs18, hg⟩ := bfLayout_wf hlay
    have hseg : ∀ (h : U64), (∀ u < 3, slotN lay.geom h u / 2 ^ s = slotN lay.geom h 0 / 2 ^ s + u) := by
      intro h u hu
      obtain ⟨_, s1, s2⟩ := hashOfHash_segments hg h
      obtain rfl | rfl | rfl : u = 0 ∨ u = 1 ∨ u = 2 := by omega
      · rfl
      · exact s1
      · exact s2
    -- if all slots of `i` belong to `j`, the segments force the same positions
    have hall : ∀ u < 3, ∃ u' < 3, slotN lay.geom (BitVec.ofFin (x i)) u = slotN lay.geom (BitVec.ofFin (x j)) u' := by
      intro u hu
      obtain ⟨k3, hk3, hne3, ht3⟩ := hcore _ hk0 _ ((htouch i _).2 ⟨u, hu, rfl⟩)
      obtain ⟨j3, rfl⟩ := hidx k3 hk3
      have hj3 : j3 ≠ i := by rintro rfl; exact hne3 rfl
      obtain rfl := hother j j3 hji hj3
      exact (htouch j _).1 ht3
    obtain ⟨u0, hu0, e0⟩ := hall 0 (by omega)
    obtain ⟨u2, hu2, e2⟩ := hall 2 (by omega)
    have a0 := congrArg (· / 2 ^ s) e0
    have a2 := congrArg (· / 2 ^ s) e2
    have at' := congrArg (· / 2 ^ s) e
    rw [hseg _ u0 hu0] at a0
    rw [hseg _ 2 (by omega), hseg _ u2 hu2] at a2
    rw [hseg _ t ht, hseg _ t' ht'] at at'
    have : t = t' := by omega
    subst this
    exact hdiff e

/-- A `1/(8/7 k L^3)` share of the hashes, at least, has any given triple of slots. -/
theorem sigMin_share {Lc s : Nat} (hL0 : 0 < Lc) (hL : Lc ≤ 2 ^ 25) (hs : s ≤ 18) :
    (7 / 8 : ℝ) / (Lc * (2 ^ s * 2 ^ s)) ≤ (sigMin (2 ^ 64) Lc s : ℝ) / ((2 ^ 64 : Nat) : ℝ) := by
  have h1 : 2 ^ 64 < (2 ^ 64 / Lc / 2 ^ (18 + s) + 1) * 2 ^ (18 + s) * Lc := by
    rw [Nat.div_div_eq_div_mul, Nat.mul_assoc]
    rw [Nat.mul_comm Lc]
    have := Nat.lt_mul_div_succ (2 ^ 64) (b := 2 ^ (18 + s) * Lc) (Nat.mul_pos (Nat.two_pow_pos _) hL0)
    rwa [Nat.mul_comm] at this
  have h2 : 2 ^ (18 + s) * Lc ≤ 2 ^ 61 := by
    calc 2 ^ (18 + s) * Lc ≤ 2 ^ 36 * 2 ^ 25 := Nat.mul_le_mul (Nat.pow_le_pow_right (by omega) (by omega)) hL
      _ = 2 ^ 61 := by rw [← Nat.pow_add]
  have h3 : 2 ^ (18 + s) = 2 ^ (18 - s) * (2 ^ s * 2 ^ s) := by
    rw [← Nat.pow_add, ← Nat.pow_add]; congr 1; omega
  have hpos : 0 < 2 ^ s := Nat.two_pow_pos s
  have hnat : 7 * 2 ^ 64 ≤ 8 * (sigMin (2 ^ 64) Lc s * (Lc * (2 ^ s * 2 ^ s))) := by
    unfold sigMin
    have e : 2 ^ 64 / Lc / 2 ^ (18 + s) * 2 ^ (18 - s) * (Lc * (2 ^ s * 2 ^ s)) =
        2 ^ 64 / Lc / 2 ^ (18 + s) * (2 ^ (18 + s) * Lc) := by rw [h3]; ring
    rw [e]
    rw [Nat.mul_assoc, Nat.add_mul] at h1
    generalize 2 ^ (18 + s) * Lc = w at *
    generalize 2 ^ 64 / Lc / 2 ^ (18 + s) * w = q at *
    omega
  have hLr : (0 : ℝ) < Lc := by exact_mod_cast hL0
  have hr : (7 : ℝ) * ((2 ^ 64 : Nat) : ℝ) ≤ 8 * ((sigMin (2 ^ 64) Lc s : ℝ) * (Lc * (2 ^ s * 2 ^ s))) := by
    have := (Nat.cast_le (α := ℝ)).2 hnat
    rw [Nat.cast_mul, Nat.cast_mul, Nat.cast_mul, Nat.cast_mul, Nat.cast_mul, Nat.cast_pow 2 s] at this
    exact_mod_cast this
  have hM : (0 : ℝ) < ((2 ^ 64 : Nat) : ℝ) := by exact_mod_cast Nat.two_pow_pos 64
  generalize ((2 ^ 64 : Nat) : ℝ) = M at *
  rw [div_le_div_iff₀ (by positivity) hM]
  generalize (sigMin (2 ^ 64) Lc s : ℝ) * (Lc * (2 ^ s * 2 ^ s)) = z at hr ⊢
  linarith

/-- The tuples of hashes behind `C120_stuck`: different hashes, no overloaded slot, two hashes with the same three cells. -/
theorem stuck_set (log : ℚ → ℚ) (hlog : LogAccurate log) (N : Nat) (hN2 : 2 ≤ N) (hN : N ≤ 2 ^ 24) (lay : Layout)
    (hlay : bfLayout N (bfSegExp log N) (bfCap0 log N) = .ok lay) :
    ∃ stuck : Finset (Fin N → Fin (2 ^ 64)),
      (1 - Real.exp (-(7 / 16 * (N * (N - 1)) / (lay.segmentCount * (lay.geom.segmentLength.toNat : ℝ) ^ 3))) - N ^ 2 / 2 ^ 65) *
        ((2 ^ 64 : Nat) : ℝ) ^ N ≤ stuck.card ∧
      ∀ x ∈ stuck, Function.Injective x ∧ (∀ s, cnt lay.geom (wordList x) s < 64) ∧
        ∃ i j, i ≠ j ∧ ∀ t < 3, slotN lay.geom (BitVec.ofFin (x i)) t = slotN lay.geom (BitVec.ofFin (x j)) t := by
  classical
  obtain ⟨lay', hlay', hl1, hl2⟩ := sized_layout log hlog N hN
  rw [hlay] at hlay'
  cases hlay'
  obtain ⟨s, hs, hg⟩ := bfLayout_wf hlay
  have hLc0 : 0 < lay.segmentCount * 2 ^ s := Nat.mul_pos hg.kpos (Nat.two_pow_pos s)
  have hLc : lay.segmentCount * 2 ^ s ≤ 2 ^ 25 := by
    refine le_trans (Nat.mul_le_mul_right _ (by omega)) (hg.len_eq.le.trans hl2)
  set σ : Fin (2 ^ 64) → Nat × Nat × Nat := fun a => sig3 (2 ^ 64) (lay.segmentCount * 2 ^ s) s a.val with hσ
  have hD := card_distinct σ (sigMin (2 ^ 64) (lay.segmentCount * 2 ^ s) s) (fun a => (sig_fibre hLc0 hs a).trans (le_of_eq (by congr))) N
  rw [Fintype.card_fin] at hD
  set D := univ.filter fun x : Fin N → Fin (2 ^ 64) => Function.Injective fun i => σ (x i) with hDdef
  set A := univ.filter fun x : Fin N → Fin (2 ^ 64) => ¬ ∀ s, cnt lay.geom (wordList x) s < 64 with hA
  set B := univ.filter fun x : Fin N → Fin (2 ^ 64) => ¬ Function.Injective x with hB
  refine ⟨univ \ (D ∪ (A ∪ B)), ?_, ?_⟩
  · have h1 : A.card ≤ _ := card_overload_many hlay (fun _ h => h) (fun _ => Function.injective_id) 1 A (by
        intro x hx
        refine ⟨0, by omega, ?_⟩
        rw [List.map_id']
        exact (mem_filter.1 hx).2)
    have h2 := overload_sized hN hlay hl1 hl2
    have h3 : 2 * 2 ^ 64 * B.card ≤ N * (N - 1) * (2 ^ 64) ^ N :=
      (le_of_eq (by congr)).trans (card_not_injective (2 ^ 64) N)
    have h4 : (2 ^ 64) ^ N ≤ (univ \ (D ∪ (A ∪ B))).card + (D.card + (A.card + B.card)) := by
      have : (univ : Finset (Fin N → Fin (2 ^ 64))).card ≤ (univ \ (D ∪ (A ∪ B))).card + (D ∪ (A ∪ B)).card := by
        rw [card_sdiff_add_card]
        exact card_le_card subset_union_left
      rw [card_univ, Fintype.card_fun, Fintype.card_fin, Fintype.card_fin] at this
      have := card_union_le D (A ∪ B)
      have := card_union_le A B
      omega
    have hAB : 2 ^ 65 * (A.card + B.card) ≤ N ^ 2 * (2 ^ 64) ^ N := by
      generalize lay.arrayLen * (N.choose 64 * slotHits lay.segmentCount lay.geom.segmentLength.toNat ^ 64 *
        (2 ^ 64) ^ (N - 64)) = C at h1 h2
      generalize A.card = a at *
      generalize B.card = b at *
      generalize (2 ^ 64) ^ N = P at h2 h3 ⊢
      have e1 : 2 ^ 65 * a ≤ P := by omega
      have e2 : N * (N - 1) + N = N ^ 2 := by
        cases N with
        | zero => rfl
        | succ n => rw [Nat.add_sub_cancel]; ring
      have e3 : P ≤ N * P := Nat.le_mul_of_pos_left _ (by omega)
      have e4 : 2 ^ 65 * b ≤ N * (N - 1) * P := h3
      rw [Nat.mul_add, ← e2, Nat.add_mul]
      omega
    have hDr := (Nat.cast_le (α := ℝ)).2 hD
    have hexp := prod_exp (M := 2 ^ 64) (c := sigMin (2 ^ 64) (lay.segmentCount * 2 ^ s) s) (Nat.two_pow_pos 64) N
    have hsh := sigMin_share hLc0 hLc hs
    have h4r := (Nat.cast_le (α := ℝ)).2 h4
    have hABr := (Nat.cast_le (α := ℝ)).2 hAB
    rw [Nat.cast_pow] at h4r
    rw [Nat.cast_add, Nat.cast_add, Nat.cast_add] at h4r
    rw [Nat.cast_mul, Nat.cast_add, Nat.cast_mul, Nat.cast_pow (2 ^ 64) N, Nat.cast_pow N 2] at hABr
    have h65 : ((2 ^ 65 : Nat) : ℝ) = 2 ^ 65 := by rw [Nat.cast_pow, Nat.cast_ofNat]
    rw [h65] at hABr
    have hM : (0 : ℝ) < ((2 ^ 64 : Nat) : ℝ) := by exact_mod_cast Nat.two_pow_pos 64
    generalize ((2 ^ 64 : Nat) : ℝ) = M at *
    have hNr : (2 : ℝ) ≤ N := by exact_mod_cast hN2
    have hk : (0 : ℝ) < lay.segmentCount := by exact_mod_cast hg.kpos
    have hsl : (lay.geom.segmentLength.toNat : ℝ) = 2 ^ s := by rw [hg.sl, Nat.cast_pow, Nat.cast_ofNat]
    have hmono : Real.exp (-((N * (N - 1) : ℝ) / 2 * ((sigMin (2 ^ 64) (lay.segmentCount * 2 ^ s) s : ℝ) / M))) ≤
        Real.exp (-(7 / 16 * (N * (N - 1)) / (lay.segmentCount * (lay.geom.segmentLength.toNat : ℝ) ^ 3))) := by
      rw [Real.exp_le_exp, neg_le_neg_iff]
      have := mul_le_mul_of_nonneg_left hsh (show (0 : ℝ) ≤ (N * (N - 1) : ℝ) / 2 by
        have : (0 : ℝ) ≤ N - 1 := by linarith
        positivity)
      refine le_trans (le_of_eq ?_) this
      rw [hsl]
      push_cast
      field_simp
      ring
    have hMN : (0 : ℝ) < M ^ N := by positivity
    have h5 := mul_le_mul_of_nonneg_left hmono hMN.le
    have h6 : ((A.card : ℝ) + B.card) ≤ N ^ 2 / 2 ^ 65 * M ^ N := by
      rw [div_mul_eq_mul_div, le_div_iff₀ (by positivity)]
      linarith
    have h7 := hDr.trans hexp
    rw [sub_mul, sub_mul, one_mul]
    linarith
  · intro x hx
    rw [mem_sdiff, mem_union, mem_union, not_or, not_or] at hx
    have hload := not_not.1 fun h => hx.2.2.1 (mem_filter.2 ⟨mem_univ _, h⟩)
    have hinj := not_not.1 fun h => hx.2.2.2 (mem_filter.2 ⟨mem_univ _, h⟩)
    have hns : ¬ Function.Injective fun i => σ (x i) := fun h => hx.2.1 (mem_filter.2 ⟨mem_univ _, h⟩)
    refine ⟨hinj, hload, ?_⟩
    unfold Function.Injective at hns
    push Not at hns
    obtain ⟨i, j, he, hij⟩ := hns
    exact ⟨i, j, hij, fun t ht => slots_of_sig hg hs he t ht⟩

/-- **C120 (any size).** Let the filters of an `N`-entry database (`2 ≤ N ≤ 2^24`) have segments of `L` cells, `k` of which
can hold a first cell. There is a set `stuck` of tuples of key hashes, a share of at least
`1 - exp (- 7/16 * N (N-1) / (k L^3)) - N^2 / 2^65` of all tuples, such that for every database, every filter seed and
every choice of the other parameters for which the key hashes are in `stuck`, the constructor panics. -/
theorem C120_stuck (log : ℚ → ℚ) (hlog : LogAccurate log) (N : Nat) (hN2 : 2 ≤ N) (hN : N ≤ 2 ^ 24) (lay : Layout)
    (hlay : bfLayout N (bfSegExp log N) (bfCap0 log N) = .ok lay) :
    ∃ stuck : Finset (Fin N → Fin (2 ^ 64)),
      (1 - Real.exp (-(7 / 16 * (N * (N - 1)) / (lay.segmentCount * (lay.geom.segmentLength.toNat : ℝ) ^ 3))) - N ^ 2 / 2 ^ 65) *
        ((2 ^ 64 : Nat) : ℝ) ^ N ≤ stuck.card ∧
      ∀ x ∈ stuck, ∀ (prof : Profile) (filterSeed : List U8) (kvs : List KeyValue) (hkv : kvs.length = N),
        filterSeed.length = 32 →
        (∀ i : Fin N, mix256 (kvs[i.val]'(hkv ▸ i.isLt)).key filterSeed = .ok (BitVec.ofFin (x i))) →
        ∀ (prg : Prg) (pseed : List U8) (fp0 : Nat → Nat → U32) (n m T b : Nat), 0 < T → 1 ≤ b → b ≤ 31 →
        (prof = .debug → 8 ≤ b) → (∀ kv ∈ kvs, kv.value.length = width T b) →
        KVShard.new prof prg pseed (bfSegExp log N) (bfCap0 log N) fp0 filterSeed kvs n m T b = .panic := by
  obtain ⟨stuck, hcard, hall⟩ := stuck_set log hlog N hN2 hN lay hlay
  refine ⟨stuck, hcard, ?_⟩
  intro x hx prof filterSeed kvs hkv hseed hhash prg pseed fp0 n m T b hT0 hb1 hb hdebug hw
  obtain ⟨hinj, hload, hsame⟩ := hall x hx
  exact (kv_outcome hlay (by omega) x hinj hload prof filterSeed kvs hkv hseed hhash prg pseed fp0 n m T b hT0 hb1 hb
    hdebug hw).1 hsame

theorem pow_of_log {a b N p : Nat} (hN : 0 < N) (h : (a : ℝ) * Real.log 2 ≤ b * Real.log 2 + p * Real.log N) :
    2 ^ a ≤ 2 ^ b * N ^ p := by
  have h1 : Real.log ((2 : ℝ) ^ a) ≤ Real.log ((2 : ℝ) ^ b * (N : ℝ) ^ p) := by
    rw [Real.log_mul (by positivity) (by positivity), Real.log_pow, Real.log_pow, Real.log_pow]
    exact h
  rw [Real.log_le_log_iff (by positivity) (by positivity)] at h1
  exact_mod_cast h1

/-- Segments are short enough that triples of slots repeat. -/
theorem size_ratio (log : ℚ → ℚ) (hlog : LogAccurate log) (N : Nat) (hN2 : 2 ≤ N) (hN : N ≤ 2 ^ 24) (lay : Layout)
    (hlay : bfLayout N (bfSegExp log N) (bfCap0 log N) = .ok lay) :
    0.0024 * (lay.segmentCount * (lay.geom.segmentLength.toNat : ℝ) ^ 3) ≤ N * (N - 1) := by
  obtain ⟨s, hs, hg⟩ := bfLayout_wf hlay
  obtain ⟨lay', e, h1, h2, h3, _, _, _, _, _, h4⟩ := C76_layout log hlog N hN2 (by omega)
  rw [hlay] at h1
  cases h1
  have hl := log_333
  have hl2 := Real.log_two_lt_d9
  have hl2' := Real.log_two_gt_d9
  have hlen : (lay.arrayLen : ℝ) = (lay.segmentCount : ℝ) * lay.geom.segmentLength.toNat + 2 * lay.geom.segmentLength.toNat := by
    rw [hg.sl, ← hg.len_eq]; push_cast; ring
  have hLe : (lay.geom.segmentLength.toNat : ℝ) ≤ 2 ^ e := by
    rw [h2]; exact_mod_cast Nat.min_le_left _ _
  have hL0 : (0 : ℝ) < lay.geom.segmentLength.toNat := by rw [hg.sl]; positivity
  generalize (lay.geom.segmentLength.toNat : ℝ) = L at *
  have hk : (0 : ℝ) < lay.segmentCount := by exact_mod_cast hg.kpos
  generalize (lay.segmentCount : ℝ) = k at *
  have hNr : (2 : ℝ) ≤ N := by exact_mod_cast hN2
  have hlogN0 : 0 ≤ Real.log N := Real.log_nonneg (by linarith)
  -- what the exponent says about the number of keys
  have hE : 3 ≤ e → 1.2 * ((e : ℝ) - 2.2501) ≤ Real.log N := by
    intro he
    have he' : (3 : ℝ) ≤ e := by exact_mod_cast he
    have h36 : (1 : ℝ) / 2 ^ 36 ≤ 0.0001 := by norm_num
    unfold idealExp at h3
    have h5 : (e : ℝ) - 2.2501 ≤ Real.log N / Real.log 3.33 := by linarith
    rw [le_div_iff₀ (by linarith)] at h5
    nlinarith
  have hel : (e : ℝ) * Real.log 2 ≤ e * 0.6931471808 := mul_le_mul_of_nonneg_left hl2.le (Nat.cast_nonneg _)
  have h8 : (2 ^ e : ℝ) ^ 3 ≤ 128 * (N : ℝ) ^ 2 := by
    have : 2 ^ (3 * e) ≤ 2 ^ 7 * N ^ 2 := by
      apply pow_of_log (by omega)
      push_cast
      rcases Nat.lt_or_ge e 3 with h | h
      · have : (e : ℝ) ≤ 2 := by exact_mod_cast (by omega : e ≤ 2)
        linarith
      · have := hE h
        have he' : (3 : ℝ) ≤ e := by exact_mod_cast h
        linarith
    rw [← pow_mul, Nat.mul_comm]
    exact_mod_cast this
  have hcap : ∀ j : Nat, 0 < j → 2 ^ j ≤ N → idealCap N ≤ N * (0.875 + max (0.25 : ℝ) (5 / (j : ℝ))) := by
    intro j hj hjN
    unfold idealCap
    have h20 : Real.log 1000000 ≤ 20 * Real.log 2 := by
      have : Real.log 1000000 ≤ Real.log ((2 : ℝ) ^ 20) := Real.log_le_log (by norm_num) (by norm_num)
      rw [Real.log_pow] at this
      exact_mod_cast this
    have hjl : (j : ℝ) * Real.log 2 ≤ Real.log N := by
      have : Real.log ((2 : ℝ) ^ j) ≤ Real.log N := Real.log_le_log (by positivity) (by exact_mod_cast hjN)
      rwa [Real.log_pow] at this
    have hj' : (0 : ℝ) < j := by exact_mod_cast hj
    have hNpos : 0 < Real.log N := lt_of_lt_of_le (by positivity) hjl
    have : 0.25 * Real.log 1000000 / Real.log N ≤ 5 / j := by
      rw [div_le_div_iff₀ hNpos hj']
      nlinarith
    refine mul_le_mul_of_nonneg_left (max_le ?_ ?_) (by linarith)
    · linarith [le_max_left (0.25 : ℝ) (5 / (j : ℝ))]
    · linarith [le_max_right (0.25 : ℝ) (5 / (j : ℝ))]
  -- the cells that can hold a first slot
  have hkL : k * L ≤ L ∨ k * L ≤ idealCap N := by
    rcases le_max_iff.1 h4 with h | h
    · left; linarith
    · right; linarith
  have h4e : (N : ℝ) * (N - 1) ≥ N ^ 2 / 2 := by nlinarith
  have hL2 : L ^ 2 ≤ (2 ^ e : ℝ) ^ 2 := pow_le_pow_left₀ hL0.le hLe 2
  rcases hkL with h | h
  · have : k * L ^ 3 ≤ (2 ^ e : ℝ) ^ 3 := by
      calc k * L ^ 3 = k * L * L ^ 2 := by ring
        _ ≤ L * L ^ 2 := mul_le_mul_of_nonneg_right h (by positivity)
        _ = L ^ 3 := by ring
        _ ≤ _ := pow_le_pow_left₀ hL0.le hLe 3
    nlinarith
  · have hcap0 : 0 ≤ idealCap N := le_trans (by positivity) h
    have hS : k * L ^ 3 ≤ idealCap N * (2 ^ e : ℝ) ^ 2 := by
      calc k * L ^ 3 = k * L * L ^ 2 := by ring
        _ ≤ idealCap N * (2 ^ e : ℝ) ^ 2 := mul_le_mul h hL2 (by positivity) hcap0
    have hlogle : ∀ j : Nat, N < 2 ^ j → Real.log N ≤ j * Real.log 2 := by
      intro j hj
      have : Real.log N ≤ Real.log ((2 : ℝ) ^ j) := Real.log_le_log (by linarith) (by exact_mod_cast hj.le)
      rwa [Real.log_pow] at this
    rcases Nat.lt_or_ge N 8 with hc | hc
    · -- e ≤ 3
      have he3 : e ≤ 3 := by
        by_contra hcon
        have he4 : (4 : ℝ) ≤ e := by exact_mod_cast (by omega : 4 ≤ e)
        have := hE (by omega)
        have := hlogle 3 (by omega)
        push_cast at this
        linarith
      have h64 : (2 ^ e : ℝ) ^ 2 ≤ 64 := by
        have : (2 : ℝ) ^ e ≤ 2 ^ 3 := pow_le_pow_right₀ (by norm_num) he3
        have := pow_le_pow_left₀ (by positivity) this 2
        norm_num at this
        exact this
      have hcs := idealCap_small hN2
      have : idealCap N * (2 ^ e : ℝ) ^ 2 ≤ 5.875 * N * 64 := mul_le_mul hcs h64 (by positivity) (by linarith)
      nlinarith
    · rcases Nat.lt_or_ge N 1024 with hd | hd
      · have he8 : e ≤ 8 := by
          by_contra hcon
          have he4 : (9 : ℝ) ≤ e := by exact_mod_cast (by omega : 9 ≤ e)
          have := hE (by omega)
          have := hlogle 10 (by omega)
          push_cast at this
          linarith
        have h128 : (2 ^ e : ℝ) ^ 2 ≤ 128 * (N : ℝ) := by
          have : 2 ^ (2 * e) ≤ 2 ^ 7 * N ^ 1 := by
            apply pow_of_log (by omega)
            push_cast
            have he8' : (e : ℝ) ≤ 8 := by exact_mod_cast he8
            rcases Nat.lt_or_ge e 3 with h | h
            · have : (e : ℝ) ≤ 2 := by exact_mod_cast (by omega : e ≤ 2)
              linarith
            · have := hE h
              linarith
          rw [← pow_mul, Nat.mul_comm]
          rw [pow_one] at this
          exact_mod_cast this
        have hc3 := hcap 3 (by omega) (by omega)
        have hmax : max (0.25 : ℝ) (5 / ((3 : Nat) : ℝ)) ≤ 1.6667 := max_le (by norm_num) (by norm_num)
        have hN8 : (8 : ℝ) ≤ N := by exact_mod_cast hc
        have hcN : idealCap N ≤ N * 2.5417 := hc3.trans (mul_le_mul_of_nonneg_left (by linarith) (by linarith))
        have : idealCap N * (2 ^ e : ℝ) ^ 2 ≤ N * 2.5417 * (128 * N) := mul_le_mul hcN h128 (by positivity) (by positivity)
        nlinarith
      · have he16 : e ≤ 16 := by
          by_contra hcon
          have he4 : (17 : ℝ) ≤ e := by exact_mod_cast (by omega : 17 ≤ e)
          have := hE (by omega)
          have : Real.log N ≤ 24 * Real.log 2 := by
            have : Real.log N ≤ Real.log ((2 : ℝ) ^ 24) := Real.log_le_log (by linarith) (by exact_mod_cast hN)
            rw [Real.log_pow] at this
            exact_mod_cast this
          linarith
        have hbig : (2 ^ e : ℝ) ^ 2 ≤ 294.1 * (N : ℝ) := by
          have : 2 ^ (10 * e) ≤ 2 ^ 41 * N ^ 5 := by
            apply pow_of_log (by omega)
            push_cast
            have he16' : (e : ℝ) ≤ 16 := by exact_mod_cast he16
            rcases Nat.lt_or_ge e 3 with h | h
            · have : (e : ℝ) ≤ 2 := by exact_mod_cast (by omega : e ≤ 2)
              linarith
            · have := hE h
              linarith
          have h5 : ((2 ^ e : ℝ) ^ 2) ^ 5 ≤ (294.1 * (N : ℝ)) ^ 5 := by
            calc ((2 ^ e : ℝ) ^ 2) ^ 5 = 2 ^ (10 * e) := by rw [← pow_mul, ← pow_mul]; congr 1; ring
              _ ≤ 2 ^ 41 * (N : ℝ) ^ 5 := by exact_mod_cast this
              _ ≤ 294.1 ^ 5 * (N : ℝ) ^ 5 := mul_le_mul_of_nonneg_right (by norm_num) (by positivity)
              _ = _ := by rw [mul_pow]
          exact le_of_pow_le_pow_left₀ (by norm_num) (by positivity) h5
        have hc3 := hcap 10 (by omega) (by omega)
        have hmax : max (0.25 : ℝ) (5 / ((10 : Nat) : ℝ)) ≤ 0.5 := max_le (by norm_num) (by norm_num)
        have hN8 : (1024 : ℝ) ≤ N := by exact_mod_cast hd
        have hcN : idealCap N ≤ N * 1.375 := hc3.trans (mul_le_mul_of_nonneg_left (by linarith) (by linarith))
        have : idealCap N * (2 ^ e : ℝ) ^ 2 ≤ N * 1.375 * (294.1 * N) := mul_le_mul hcN hbig (by positivity) (by positivity)
        nlinarith

/-- The share of `stuck_set` at the sizes the library computes. -/
theorem share_thousand (log : ℚ → ℚ) (hlog : LogAccurate log) (N : Nat) (hN2 : 2 ≤ N) (hN : N ≤ 2 ^ 24) (lay : Layout)
    (hlay : bfLayout N (bfSegExp log N) (bfCap0 log N) = .ok lay) (stuck : Finset (Fin N → Fin (2 ^ 64)))
    (hcard : (1 - Real.exp (-(7 / 16 * (N * (N - 1)) / (lay.segmentCount * (lay.geom.segmentLength.toNat : ℝ) ^ 3))) -
      N ^ 2 / 2 ^ 65) * ((2 ^ 64 : Nat) : ℝ) ^ N ≤ stuck.card) : (2 ^ 64) ^ N ≤ 1000 * stuck.card := by
  have hr := size_ratio log hlog N hN2 hN lay hlay
  obtain ⟨s, hs, hg⟩ := bfLayout_wf hlay
  have hS : (0 : ℝ) < lay.segmentCount * (lay.geom.segmentLength.toNat : ℝ) ^ 3 := by
    rw [hg.sl]
    have : (0 : ℝ) < lay.segmentCount := by exact_mod_cast hg.kpos
    positivity
  have he : Real.exp (-(7 / 16 * (N * (N - 1)) / (lay.segmentCount * (lay.geom.segmentLength.toNat : ℝ) ^ 3))) ≤ 0.99896 := by
    generalize (lay.segmentCount * (lay.geom.segmentLength.toNat : ℝ) ^ 3) = S at *
    have h1 : (0.00105 : ℝ) ≤ 7 / 16 * (N * (N - 1)) / S := by
      rw [le_div_iff₀ hS]; linarith
    have h2 : Real.exp (-(7 / 16 * ((N : ℝ) * (N - 1)) / S)) ≤ Real.exp (-0.00105) := by
      rw [Real.exp_le_exp]; linarith
    refine h2.trans ?_
    rw [Real.exp_neg, inv_le_comm₀ (Real.exp_pos _) (by norm_num)]
    have := Real.add_one_le_exp (0.00105 : ℝ)
    norm_num at this ⊢
    linarith
  have hNr : (N : ℝ) ≤ 16777216 := by exact_mod_cast hN
  have hN0 : (0 : ℝ) ≤ N := Nat.cast_nonneg _
  have hsq : (N : ℝ) ^ 2 / 2 ^ 65 ≤ 0.00001 := by
    rw [div_le_iff₀ (by positivity)]
    calc (N : ℝ) ^ 2 ≤ 16777216 ^ 2 := pow_le_pow_left₀ hN0 hNr 2
      _ ≤ _ := by norm_num
  have hP : (0 : ℝ) < ((2 ^ 64 : Nat) : ℝ) ^ N := pow_pos (by exact_mod_cast Nat.two_pow_pos 64) _
  have hfin : ((2 ^ 64 : Nat) : ℝ) ^ N ≤ 1000 * stuck.card := by
    generalize ((2 ^ 64 : Nat) : ℝ) ^ N = P at *
    nlinarith
  have e : ((2 ^ 64 : Nat) : ℝ) ^ N = (((2 ^ 64) ^ N : Nat) : ℝ) := (Nat.cast_pow _ _).symm
  rw [e] at hfin
  exact_mod_cast hfin

/-- **C120 (one in a thousand).** At every size from 2 to `2^24` entries, for at least one in a thousand tuples of key
hashes the constructor panics: with uniform hashes, one random filter seed in a thousand cannot be used, and the library
does not try another. -/
theorem C120_one_in_a_thousand (log : ℚ → ℚ) (hlog : LogAccurate log) (N : Nat) (hN2 : 2 ≤ N) (hN : N ≤ 2 ^ 24) :
    ∃ stuck : Finset (Fin N → Fin (2 ^ 64)), (2 ^ 64) ^ N ≤ 1000 * stuck.card ∧
      ∀ x ∈ stuck, ∀ (prof : Profile) (filterSeed : List U8) (kvs : List KeyValue) (hkv : kvs.length = N),
        filterSeed.length = 32 →
        (∀ i : Fin N, mix256 (kvs[i.val]'(hkv ▸ i.isLt)).key filterSeed = .ok (BitVec.ofFin (x i))) →
        ∀ (prg : Prg) (pseed : List U8) (fp0 : Nat → Nat → U32) (n m T b : Nat), 0 < T → 1 ≤ b → b ≤ 31 →
        (prof = .debug → 8 ≤ b) → (∀ kv ∈ kvs, kv.value.length = width T b) →
        KVShard.new prof prg pseed (bfSegExp log N) (bfCap0 log N) fp0 filterSeed kvs n m T b = .panic := by
  obtain ⟨lay, hlay, _, _⟩ := sized_layout log hlog N hN
  obtain ⟨stuck, hcard, hall⟩ := C120_stuck log hlog N hN2 hN lay hlay
  exact ⟨stuck, share_thousand log hlog N hN2 hN lay hlay stuck hcard, hall⟩

/-- The geometry for two keys: three segments of four cells. -/
theorem two_layout (log : ℚ → ℚ) (hlog : LogAccurate log) (lay : Layout)
    (hlay : bfLayout 2 (bfSegExp log 2) (bfCap0 log 2) = .ok lay) : lay.geom.WF 12 2 1 := by
  obtain ⟨s, hs, hg⟩ := bfLayout_wf hlay
  obtain ⟨lay', e, h1, h2, h3, h3', _, _, _, _, h4⟩ := C76_layout log hlog 2 (by omega) (by omega)
  rw [hlay] at h1
  cases h1
  have hl := log_333
  have hl2 := Real.log_two_lt_d9
  have hl2' := Real.log_two_gt_d9
  have h36 : (1 : ℝ) / 2 ^ 36 ≤ 0.1 := by norm_num
  have hq : Real.log ((2 : Nat) : ℝ) / Real.log 3.33 ≤ 0.6 := by
    rw [div_le_iff₀ (by linarith)]; push_cast; linarith
  have hq0 : 0 ≤ Real.log ((2 : Nat) : ℝ) / Real.log 3.33 := div_nonneg (by push_cast; linarith) (by linarith)
  unfold idealExp at h3 h3'
  have e1 : e < 3 := by
    have : (e : ℝ) < 3 := by linarith
    exact_mod_cast this
  have e2 : 1 < e := by
    have : (1 : ℝ) < e := by linarith
    exact_mod_cast this
  obtain rfl : e = 2 := by omega
  rw [show min (2 ^ 2) 262144 = 2 ^ 2 from rfl, hg.sl] at h2
  have hs2 : s = 2 := Nat.pow_right_injective (le_refl 2) h2
  subst hs2
  have hcap := idealCap_small (n := 2) (by omega)
  have hlen := hg.len_eq
  rw [hg.sl] at h4
  have h15 : (lay.arrayLen : ℝ) < 16 := by
    refine lt_of_le_of_lt h4 (max_lt (by norm_num) ?_)
    push_cast at hcap ⊢
    linarith
  have h15' : lay.arrayLen < 16 := by exact_mod_cast h15
  have hk := hg.kpos
  have hk1 : lay.segmentCount = 1 := by omega
  have hl12 : lay.arrayLen = 12 := by rw [hk1] at hlen; omega
  rw [hk1, hl12] at hg
  exact hg

/-- Two hashes agree in bits 62-63, 18-19 and 0-1. -/
def Spec.SameCells (h h' : Nat) : Prop := h / 2 ^ 62 = h' / 2 ^ 62 ∧ h / 2 ^ 18 % 4 = h' / 2 ^ 18 % 4 ∧ h % 4 = h' % 4

instance (h h' : Nat) : Decidable (SameCells h h') := by unfold SameCells; infer_instance

theorem sameCells_iff (h h' : Nat) : SameCells h h' ↔ sig3 (2 ^ 64) (1 * 2 ^ 2) 2 h = sig3 (2 ^ 64) (1 * 2 ^ 2) 2 h' := by
  have e : ∀ a : Nat, a * (1 * 2 ^ 2) / 2 ^ 64 = a / 2 ^ 62 := fun a => by omega
  unfold SameCells sig3
  rw [e, e, Prod.mk.injEq, Prod.mk.injEq, show (2 : Nat) ^ 2 = 4 from rfl]

/-- **C120 (two entries).** A database of two entries with different key hashes `h0`, `h1` cannot be built, in either
profile, exactly if the hashes agree in bits 62-63, 18-19 and 0-1; otherwise the constructor returns a shard. -/
theorem C120_two_entries (log : ℚ → ℚ) (hlog : LogAccurate log) (prof : Profile) (filterSeed : List U8) (kv0 kv1 : KeyValue)
    (h0 h1 : U64) (hseed : filterSeed.length = 32) (e0 : mix256 kv0.key filterSeed = .ok h0)
    (e1 : mix256 kv1.key filterSeed = .ok h1) (hne : h0 ≠ h1) (prg : Prg) (pseed : List U8) (fp0 : Nat → Nat → U32)
    (n m T b : Nat) (hT : 0 < T) (hb1 : 1 ≤ b) (hb : b ≤ 31) (hdebug : prof = .debug → 8 ≤ b)
    (hw0 : kv0.value.length = width T b) (hw1 : kv1.value.length = width T b) :
    (SameCells h0.toNat h1.toNat →
      KVShard.new prof prg pseed (bfSegExp log 2) (bfCap0 log 2) fp0 filterSeed [kv0, kv1] n m T b = .panic) ∧
    (¬ SameCells h0.toNat h1.toNat →
      ∃ shard, KVShard.new prof prg pseed (bfSegExp log 2) (bfCap0 log 2) fp0 filterSeed [kv0, kv1] n m T b = .ok shard) := by
  obtain ⟨lay, hlay, _, _⟩ := sized_layout log hlog 2 (by omega)
  have hg := two_layout log hlog lay hlay
  have hout := kv_outcome hlay (by omega) ![h0.toFin, h1.toFin] (by
      intro i j
      refine Fin.cases ?_ (fun i => Fin.cases ?_ (fun k => k.elim0) i) i <;>
        refine Fin.cases ?_ (fun j => Fin.cases ?_ (fun k => k.elim0) j) j
      · intro _; rfl
      · intro h; exact absurd (BitVec.eq_of_toFin_eq h) hne
      · intro h; exact absurd (BitVec.eq_of_toFin_eq h).symm hne
      · intro _; rfl) (by
      intro s
      refine lt_of_le_of_lt List.countP_le_length ?_
      show (List.ofFn _).length < 64
      rw [List.length_ofFn]
      omega) prof filterSeed [kv0, kv1] rfl hseed (by
      intro i
      refine Fin.cases ?_ (fun i => Fin.cases ?_ (fun k => k.elim0) i) i
      · exact e0
      · exact e1) prg pseed fp0 n m T b hT hb1 hb hdebug (by
      intro kv hkv
      simp only [List.mem_cons, List.not_mem_nil, or_false] at hkv
      rcases hkv with rfl | rfl
      · exact hw0
      · exact hw1)
  rw [sameCells_iff]
  constructor
  · intro hsame
    exact hout.1 ⟨0, 1, by decide, fun t ht => slots_of_sig hg (by omega) hsame t ht⟩
  · intro hdiff
    refine hout.2 rfl ?_
    have hex : ∃ t < 3, slotN lay.geom h0 t ≠ slotN lay.geom h1 t := by
      by_contra hcon
      push Not at hcon
      exact hdiff (sig_of_slots hg (by omega) hcon)
    obtain ⟨t, ht, hne⟩ := hex
    intro i j
    refine Fin.cases ?_ (fun i => Fin.cases ?_ (fun k => k.elim0) i) i <;>
      refine Fin.cases ?_ (fun j => Fin.cases ?_ (fun k => k.elim0) j) j
    · intro h; exact absurd rfl h
    · intro _; exact ⟨t, ht, hne⟩
    · intro _; exact ⟨t, ht, hne.symm⟩
    · intro h; exact absurd rfl h

theorem card_pairs_ne {M c : Nat} {β : Type} [DecidableEq β] (σ : Fin M → β) (hc : ∀ a, (univ.filter fun b => σ b = σ a).card = c) :
    (univ.filter fun x : Fin 2 → Fin M => x 0 ≠ x 1 ∧ σ (x 0) = σ (x 1)).card = M * c - M := by
  have h1 := card_pairs σ hc
  have h2 := card_pairs (M := M) (c := 1) (fun a => a) (fun a => by
    rw [filter_eq' univ a, if_pos (mem_univ _), card_singleton])
  have h3 : (univ.filter fun x : Fin 2 → Fin M => σ (x 0) = σ (x 1)) =
      (univ.filter fun x : Fin 2 → Fin M => x 0 ≠ x 1 ∧ σ (x 0) = σ (x 1)) ∪
      (univ.filter fun x : Fin 2 → Fin M => x 0 = x 1) := by
    ext x
    simp only [mem_union, mem_filter, mem_univ, true_and]
    constructor
    · intro h
      by_cases hx : x 0 = x 1
      · exact Or.inr hx
      · exact Or.inl ⟨hx, h⟩
    · rintro (⟨_, h⟩ | h)
      · exact h
      · rw [h]
  rw [h3, card_union_of_disjoint] at h1
  · omega
  · rw [disjoint_left]
    intro x hx hy
    exact (mem_filter.1 hx).2.1 (mem_filter.1 hy).2

/-- **C120 (two entries, the count).** Of the `2^128` pairs of hashes, `2^122 - 2^64` pairs of different hashes agree in
those bits: a two-entry database fails for one pair of hashes in 64. -/
theorem C120_two_count :
    (univ.filter fun x : Fin 2 → Fin (2 ^ 64) => x 0 ≠ x 1 ∧ SameCells (x 0).val (x 1).val).card = 2 ^ 122 - 2 ^ 64 := by
  have hfull : 1 * 2 ^ 2 * (2 ^ 2 * 2 ^ 2) * sigMin (2 ^ 64) (1 * 2 ^ 2) 2 = 2 ^ 64 := by unfold sigMin; decide +kernel
  have hmin : sigMin (2 ^ 64) (1 * 2 ^ 2) 2 = 2 ^ 58 := by unfold sigMin; decide +kernel
  have h1 := card_pairs_ne (M := 2 ^ 64) (fun a => sig3 (2 ^ 64) (1 * 2 ^ 2) 2 a.val) (fun a =>
    sig_fibre_eq (by omega) (by omega) hfull a)
  rw [hmin, ← Nat.pow_add] at h1
  refine Eq.trans (congrArg Finset.card (filter_congr fun x _ => ?_)) h1
  rw [sameCells_iff]

/-- Both sides of `C120_two_entries` occur: concrete keys that share their cells and keys that do not. -/
example : ∃ k0 k1 k2 : Key, ∃ h0 h1 h2 : U64, exSeed.length = 32 ∧ mix256 k0 exSeed = .ok h0 ∧ mix256 k1 exSeed = .ok h1 ∧
    mix256 k2 exSeed = .ok h2 ∧ h0 ≠ h1 ∧ h0 ≠ h2 ∧ SameCells h0.toNat h1.toNat ∧ ¬ SameCells h0.toNat h2.toNat := by
  have h32 : exSeed.length = 32 := by decide +kernel
  obtain ⟨a, ha⟩ := mix256_total h32 [1#64, 2#64, 3#64, 4#64]
  obtain ⟨b, hb⟩ := mix256_total h32 [71#64, 0#64, 0#64, 0#64]
  obtain ⟨c, hc⟩ := mix256_total h32 [1#64, 0#64, 0#64, 0#64]
  have key : ∀ a b c : U64, mix256 [1#64, 2#64, 3#64, 4#64] exSeed = .ok a → mix256 [71#64, 0#64, 0#64, 0#64] exSeed = .ok b →
      mix256 [1#64, 0#64, 0#64, 0#64] exSeed = .ok c → a ≠ b ∧ a ≠ c ∧ SameCells a.toNat b.toNat ∧ ¬ SameCells a.toNat c.toNat := by
    intro a b c h1 h2 h3
    have : (match mix256 [1#64, 2#64, 3#64, 4#64] exSeed, mix256 [71#64, 0#64, 0#64, 0#64] exSeed,
        mix256 [1#64, 0#64, 0#64, 0#64] exSeed with
      | .ok a, .ok b, .ok c => decide (a ≠ b ∧ a ≠ c ∧ SameCells a.toNat b.toNat ∧ ¬ SameCells a.toNat c.toNat)
      | _, _, _ => false) = true := by decide +kernel
    rw [h1, h2, h3] at this
    exact of_decide_eq_true this
  exact ⟨_, _, _, a, b, c, h32, ha, hb, hc, key a b c ha hb hc⟩

end Chalamet
