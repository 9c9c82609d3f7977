import Verif.Lemmas.FillP
import Verif.Props.FalsePos
import Verif.Props.KvAccess
import Mathlib.Algebra.BigOperators.Fin

/-!
# C95: what a key-value filter says about a key that is not in it

`BinaryFuseP32` fills its array with random words before it assigns cells (feature `uniform-random`, on by default). The theorems
count those words: `Fin n → Fin (2^32)` are all initial contents of an array of `n` cells.
-/

namespace Chalamet
open Finset Spec

/-- The retrieved value of a key is an affine form modulo `2^b` in the initial contents, whose linear part does not depend on
the stored data or the label. -/
theorem retrieve_affine {prof : Profile} {segExp cap0 b : Nat} (hb : b ≤ 31) {fp1 : Nat → U32} {seed : List U8}
    {keys : List Key} {data1 : List U32} {label1 p1 : U64} {f1 : BinaryFuseP32} {lay : Layout} (hseed : seed.length = 32)
    (hlay : bfLayout keys.length segExp cap0 = .ok lay) (hp1 : p1.toNat = 2 ^ b)
    (h1 : BinaryFuseP32.fromVec prof segExp cap0 fp1 seed keys data1 label1 p1 = .ok f1) (key : Key) :
    ∃ c : Nat → ZMod (2 ^ b),
      ((prof = .debug ∨ ∀ s, slotLoad seed lay.geom keys s < 64) → ∀ s, slotLoad seed lay.geom [key] s = 1 →
        slotLoad seed lay.geom keys s = 0 → s < lay.arrayLen ∧ c s = 1) ∧
      ∀ (data : List U32) (label label' p : U64) (fp : Nat → U32) (f : BinaryFuseP32), p.toNat = 2 ^ b →
        BinaryFuseP32.fromVec prof segExp cap0 fp seed keys data label p = .ok f →
        ∃ K : ZMod (2 ^ b), ∀ fp0 : Nat → U32, ∃ (f0 : BinaryFuseP32) (r : U32),
          BinaryFuseP32.fromVec prof segExp cap0 fp0 seed keys data label p = .ok f0 ∧
          f0.retrieve key label' = .ok r ∧ r.toNat < 2 ^ b ∧
          (r.toNat : ZMod (2 ^ b)) = K + ∑ i ∈ range lay.arrayLen, c i * ((fp0 i).toNat : ZMod (2 ^ b)) := by
  obtain ⟨hashes, stk, C, g1, g2, g3, g4, g5⟩ := bfp_affine hb hlay hp1 h1
  obtain ⟨h, hh⟩ := mix256_total hseed key
  obtain ⟨sg, _, hg⟩ := bfLayout_wf hlay
  have ho := slotsOk hg h
  refine ⟨fun i => C (slotN lay.geom h 0) i + C (slotN lay.geom h 1) i + C (slotN lay.geom h 2) i, ?_, ?_⟩
  · intro hload s hs1 hs0
    have hl := mapRes_length g1
    have hload' : prof = .debug ∨ Fits lay.geom hashes := hload.imp_right (fits_iff g1).2
    have hS : Solved lay.geom hashes stk := by
      rcases bfpLoop_spec (prof := prof) hg hl hload' with ⟨stk', hS, hb⟩ | hb | ⟨_, _, r, hr, hb⟩
      · rw [hb _ (by decide)] at g2; cases g2; exact hS
      · rw [hb] at g2; cases g2
      · rw [hb _ (by decide)] at g2; exact absurd g2 (hr _)
    have hk : mapRes (fun k => mix256 k seed) [key] = .ok [h] := by
      rw [mapRes_cons, hh]; rfl
    rw [slotLoad_eq hk] at hs1
    rw [slotLoad_eq g1] at hs0
    have hon : on lay.geom s h = true := by
      by_contra hcon
      unfold cnt at hs1
      simp [hcon] at hs1
    have hoff : ∀ x ∈ hashes, on lay.geom s x = false := by
      intro x hx
      unfold cnt at hs0
      rw [List.countP_eq_zero] at hs0
      simpa using hs0 x hx
    have hslot : ∀ j, s = slotN lay.geom h j → s < lay.arrayLen := by
      rintro j rfl; exact slot_lt ho _
    have hon' : s = slotN lay.geom h 0 ∨ s = slotN lay.geom h 1 ∨ s = slotN lay.geom h 2 := by
      simpa [on] using hon
    have hsn : s < lay.arrayLen := by rcases hon' with e | e | e <;> exact hslot _ e
    obtain ⟨c1, c2⟩ := g4 s hsn (by
      rintro ⟨x, f⟩ he
      have hx := hoff x (g3 _ he)
      have hf := hS.peel.1 _ he
      simp only at hf
      have hx' : s ≠ slotN lay.geom x 0 ∧ s ≠ slotN lay.geom x 1 ∧ s ≠ slotN lay.geom x 2 := by
        simpa [on] using hx
      obtain ⟨n0, n1, n2⟩ := hx'
      have hf' : f = 0 ∨ f = 1 ∨ f = 2 := by omega
      rcases hf' with rfl | rfl | rfl <;> simp [triP] <;> refine ⟨?_, ?_, ?_⟩ <;> exact Ne.symm (by assumption))
    refine ⟨hsn, ?_⟩
    show C _ s + C _ s + C _ s = 1
    rcases hon' with e | e | e
    · rw [← e, c1, c2 _ (slot_lt ho 1) (by rw [e]; exact Ne.symm ho.d01), c2 _ (slot_lt ho 2) (by rw [e]; exact Ne.symm ho.d02)]
      ring
    · rw [← e, c1, c2 _ (slot_lt ho 0) (by rw [e]; exact ho.d01), c2 _ (slot_lt ho 2) (by rw [e]; exact Ne.symm ho.d12)]
      ring
    · rw [← e, c1, c2 _ (slot_lt ho 0) (by rw [e]; exact ho.d02), c2 _ (slot_lt ho 1) (by rw [e]; exact ho.d12)]
      ring
  · intro data label label' p fp f hp hf
    obtain ⟨K, hK⟩ := g5 data label p fp f hp hf
    have hlt : p.toNat < 2 ^ 32 := by rw [hp]; exact Nat.pow_lt_pow_right (by omega) (by omega)
    have hpn : (p.setWidth 32 : U32).toNat = 2 ^ b := by rw [setWidth_toNat_lt hlt, hp]
    refine ⟨K (slotN lay.geom h 0) + K (slotN lay.geom h 1) + K (slotN lay.geom h 2) +
      (((mix h label' % p).setWidth 32 : U32).toNat : ZMod (2 ^ b)), ?_⟩
    intro fp0
    obtain ⟨f0, e1, e2, e3, e4, e5, e6⟩ := hK fp0
    have hr := retrieve_eq (f := f0) (key := key) (label := label') (hash := h) (n := lay.arrayLen) (by rw [e2]; exact hh)
      (by rw [e3]; exact ho) e5 (by
        rw [e4]; intro e; rw [e] at hpn; simp at hpn; have := Nat.two_pow_pos b; omega)
    refine ⟨f0, _, e1, hr, ?_, ?_⟩
    · rw [e4, BitVec.toNat_umod, hpn]; exact Nat.mod_lt _ (Nat.two_pow_pos b)
    · rw [e4, cast_mod hpn, cast_add (by omega), cast_add (by omega), cast_add (by omega), e3, e6 _ ho.l0, e6 _ ho.l1, e6 _ ho.l2]
      have hsum : ∑ i ∈ range lay.arrayLen, (C (slotN lay.geom h 0) i + C (slotN lay.geom h 1) i + C (slotN lay.geom h 2) i) *
          ((fp0 i).toNat : ZMod (2 ^ b)) = ∑ i ∈ range lay.arrayLen, C (slotN lay.geom h 0) i * ((fp0 i).toNat : ZMod (2 ^ b)) +
          ∑ i ∈ range lay.arrayLen, C (slotN lay.geom h 1) i * ((fp0 i).toNat : ZMod (2 ^ b)) +
          ∑ i ∈ range lay.arrayLen, C (slotN lay.geom h 2) i * ((fp0 i).toNat : ZMod (2 ^ b)) := by
        rw [← sum_add_distrib, ← sum_add_distrib]
        apply sum_congr rfl
        intro i _
        ring
      rw [hsum]
      ring

/-- Sums over the first `n` naturals and over `Fin n`, with the contents `fill x`. -/
theorem sum_fill {b n : Nat} (c : Nat → ZMod (2 ^ b)) (x : Fin n → Fin (2 ^ 32)) :
    ∑ i ∈ range n, c i * ((fill x i).toNat : ZMod (2 ^ b)) = ∑ i : Fin n, c i.val * ((x i).val : ZMod (2 ^ b)) := by
  rw [Finset.sum_range]
  apply sum_congr rfl
  intro i _
  rw [fill_lt]
  rfl

theorem cast_eq_iff {b r v : Nat} (hr : r < 2 ^ b) (hv : v < 2 ^ b) : (r : ZMod (2 ^ b)) = (v : ZMod (2 ^ b)) ↔ r = v := by
  rw [ZMod.natCast_eq_natCast_iff]
  unfold Nat.ModEq
  rw [Nat.mod_eq_of_lt hr, Nat.mod_eq_of_lt hv]

open Classical in
/-- **C95 (filter).** Take keys and data for which construction succeeds for some initial contents; then it succeeds for all. For
every key and label, stored or not, the value that is retrieved is, over all initial contents, equidistributed on the values
below `2^b` that have a fixed residue modulo a power of two `2^t`: `t = b` if it does not depend on the contents at all (stored
keys), `t = 0` if it is uniform. -/
theorem C95_retrieve_distribution (prof : Profile) (segExp cap0 b : Nat) (hb : b ≤ 31) (fp1 : Nat → U32) (seed : List U8)
    (keys : List Key) (data : List U32) (label p : U64) (f1 : BinaryFuseP32) (lay : Layout) (hseed : seed.length = 32)
    (hlay : bfLayout keys.length segExp cap0 = .ok lay) (hp : p.toNat = 2 ^ b)
    (hf : BinaryFuseP32.fromVec prof segExp cap0 fp1 seed keys data label p = .ok f1) (key : Key) (label' : U64) :
    (∀ fp0, ∃ f, BinaryFuseP32.fromVec prof segExp cap0 fp0 seed keys data label p = .ok f) ∧
    ∃ t ≤ b, ∃ v₀ < 2 ^ t, ∀ v < 2 ^ b,
      (univ.filter fun x : Fin lay.arrayLen → Fin (2 ^ 32) =>
        ∃ f : BinaryFuseP32, BinaryFuseP32.fromVec prof segExp cap0 (fill x) seed keys data label p = Res.ok f ∧
          f.retrieve key label' = Res.ok (BitVec.ofNat 32 v)).card * 2 ^ (b - t) =
        if v % 2 ^ t = v₀ then (2 ^ 32) ^ lay.arrayLen else 0 := by
  obtain ⟨c, _, hc⟩ := retrieve_affine hb hseed hlay hp hf key
  obtain ⟨K, hK⟩ := hc data label label' p fp1 f1 hp hf
  refine ⟨fun fp0 => by obtain ⟨f, _, h, _⟩ := hK fp0; exact ⟨f, h⟩, ?_⟩
  obtain ⟨t, ht, _, hcard⟩ := card_affine (n := lay.arrayLen) (show b ≤ 32 by omega) c
  refine ⟨t, ht, K.val % 2 ^ t, Nat.mod_lt _ (Nat.two_pow_pos t), ?_⟩
  intro v hv
  rw [← hcard K v hv]
  refine congrArg (fun s => Finset.card s * _) (Finset.filter_congr ?_)
  intro x _
  obtain ⟨f, r, h1, h2, h3, h4⟩ := hK (fill x)
  rw [sum_fill] at h4
  rw [← h4, cast_eq_iff h3 hv]
  have hb32 : 2 ^ b < 2 ^ 32 := Nat.pow_lt_pow_right (by omega) (by omega)
  constructor
  · rintro ⟨f', h5, h6⟩
    rw [h1] at h5
    cases h5
    rw [h2] at h6
    simp only [Res.ok.injEq] at h6
    rw [h6, BitVec.toNat_ofNat, Nat.mod_eq_of_lt (by omega)]
  · intro h
    refine ⟨f, h1, ?_⟩
    rw [h2, ← h, BitVec.ofNat_toNat, BitVec.setWidth_eq]

open Classical in
/-- **C95 (filter, fresh slot).** A key one of whose slots is used by no stored key gets every value equally often. (In release
builds no slot may carry 64 or more keys.) -/
theorem C95_fresh_slot_uniform (prof : Profile) (segExp cap0 b : Nat) (hb : b ≤ 31) (fp1 : Nat → U32) (seed : List U8)
    (keys : List Key) (data : List U32) (label p : U64) (f1 : BinaryFuseP32) (lay : Layout) (hseed : seed.length = 32)
    (hlay : bfLayout keys.length segExp cap0 = .ok lay) (hp : p.toNat = 2 ^ b)
    (hf : BinaryFuseP32.fromVec prof segExp cap0 fp1 seed keys data label p = .ok f1)
    (hload : prof = .debug ∨ ∀ s, slotLoad seed lay.geom keys s < 64) (key : Key) (label' : U64) (s : Nat)
    (hkey : slotLoad seed lay.geom [key] s = 1) (hfresh : slotLoad seed lay.geom keys s = 0) (v : Nat) (hv : v < 2 ^ b) :
    (univ.filter fun x : Fin lay.arrayLen → Fin (2 ^ 32) =>
      ∃ f : BinaryFuseP32, BinaryFuseP32.fromVec prof segExp cap0 (fill x) seed keys data label p = Res.ok f ∧
        f.retrieve key label' = Res.ok (BitVec.ofNat 32 v)).card * 2 ^ b = (2 ^ 32) ^ lay.arrayLen := by
  obtain ⟨c, hone, hc⟩ := retrieve_affine hb hseed hlay hp hf key
  obtain ⟨K, hK⟩ := hc data label label' p fp1 f1 hp hf
  obtain ⟨t, ht, hdiv, hcard⟩ := card_affine (n := lay.arrayLen) (show b ≤ 32 by omega) c
  obtain ⟨hs, hcs⟩ := hone hload s hkey hfresh
  have ht0 : t = 0 := by
    by_contra hne
    have h1 := hdiv s hs
    rw [hcs] at h1
    have : Fact (1 < 2 ^ b) := ⟨Nat.one_lt_two_pow (by omega)⟩
    rw [ZMod.val_one] at h1
    have := Nat.le_of_dvd (by omega) h1
    have h2 : 2 ^ 1 ≤ 2 ^ t := Nat.pow_le_pow_right (by omega) (by omega)
    omega
  have := hcard K v hv
  rw [ht0] at this
  simp only [pow_zero, Nat.mod_one, if_true, Nat.sub_zero] at this
  rw [← this]
  refine congrArg (fun s => Finset.card s * _) (Finset.filter_congr ?_)
  intro x _
  obtain ⟨f, r, h1, h2, h3, h4⟩ := hK (fill x)
  rw [sum_fill] at h4
  rw [← h4, cast_eq_iff h3 hv]
  have hb32 : 2 ^ b < 2 ^ 32 := Nat.pow_lt_pow_right (by omega) (by omega)
  constructor
  · rintro ⟨f', h5, h6⟩
    rw [h1] at h5
    cases h5
    rw [h2] at h6
    simp only [Res.ok.injEq] at h6
    rw [h6, BitVec.toNat_ofNat, Nat.mod_eq_of_lt (by omega)]
  · intro h
    refine ⟨f, h1, ?_⟩
    rw [h2, ← h, BitVec.ofNat_toNat, BitVec.setWidth_eq]

/-- **C95 (filter, taken slots).** A key that has the same three slots as a stored key gets a value that does not depend on the
initial contents: the stored datum plus its own fingerprint minus that of the stored key, modulo `2^b`. -/
theorem C95_same_slots (prof : Profile) (segExp cap0 b : Nat) (hb : b ≤ 31) (fp0 : Nat → U32) (seed : List U8)
    (keys : List Key) (data : List U32) (label p : U64) (f : BinaryFuseP32) (hp : p.toNat = 2 ^ b)
    (hf : BinaryFuseP32.fromVec prof segExp cap0 fp0 seed keys data label p = .ok f)
    (hload : prof = .debug ∨ ∀ s, slotLoad seed f.geom keys s < 64)
    (i : Nat) (hi : i < keys.length) (hd : i < data.length)
    (hlast : ∀ k (hk : k < keys.length), i < k → mix256 keys[k] seed ≠ mix256 keys[i] seed)
    (key : Key) (hsame : BinaryFuseP32.hashEval prof key seed f.geom = BinaryFuseP32.hashEval prof keys[i] seed f.geom) :
    ∃ (r : U32) (u v : U64), f.retrieve key label = .ok r ∧ r.toNat < 2 ^ b ∧
      BinaryFuseP32.getKeyFingerprint key seed label = .ok u ∧ BinaryFuseP32.getKeyFingerprint keys[i] seed label = .ok v ∧
      (r.toNat + v.toNat) % 2 ^ b = (data[i].toNat + u.toNat) % 2 ^ b := by
  obtain ⟨x, hx, hxv⟩ := C28_retrieve prof segExp cap0 fp0 seed keys data label p f hf (by rw [hp]; exact Nat.pow_dvd_pow 2 (by omega))
    (by rw [hp]; exact Nat.pow_lt_pow_right (by omega) (by omega)) hload i i hi hi hd rfl hlast
  have hfs : f.seed = seed := by obtain ⟨_, _, _, _, _, _, hs, _⟩ := bfp_wf hf; exact hs
  have hseed : seed.length = 32 := by
    obtain ⟨_, hashes, _, _, _, h2, _⟩ := bfp_ok hf
    have hl := mapRes_length h2
    exact mix256_seed (mapRes_getElem h2 hi (by omega))
  obtain ⟨col, a1, a2, a3, x1, x2, x3, v, r1, c1, c2, c3, c4, c5, c6, c7, c8, c9⟩ :=
    C36_unmask prof segExp cap0 fp0 seed keys data label p f hf b hb hp hseed keys[i] label
  obtain ⟨col', b1, b2, b3, y1, y2, y3, u, r2, d1, d2, d3, d4, d5, d6, d7, d8, d9⟩ :=
    C36_unmask prof segExp cap0 fp0 seed keys data label p f hf b hb hp hseed key label
  rw [hfs] at c3 c7 d3 d7
  rw [hsame, c3] at d3
  rw [c1] at d1
  simp only [Res.ok.injEq, List.cons.injEq, and_true] at d1 d3
  subst d1
  obtain ⟨rfl, rfl, rfl⟩ := d3
  rw [c4] at d4; rw [c5] at d5; rw [c6] at d6
  cases d4; cases d5; cases d6
  rw [hx] at c8
  cases c8
  refine ⟨r2, u, v, d8, ?_, d7, c7, ?_⟩
  · rw [d9]; exact Nat.mod_lt _ (Nat.two_pow_pos b)
  · rw [hp] at hxv
    rw [d9, Nat.mod_add_mod, ← Nat.mod_add_mod data[i].toNat, ← hxv, c9, Nat.mod_add_mod]
    congr 1
    omega

/-- The initial contents of the `w` arrays of a key-value database. -/
def fills {w n : Nat} (x : Fin w → Fin n → Fin (2 ^ 32)) (j i : Nat) : U32 :=
  if h : j < w then fill (x ⟨j, h⟩) i else 0#32

theorem fills_lt {w n : Nat} (x : Fin w → Fin n → Fin (2 ^ 32)) (j : Fin w) : fills x j.val = fill (x j) := by
  funext i
  simp [fills]

theorem fromSlice_of_fromVec {prof : Profile} {segExp cap0 : Nat} {fp0 : Nat → U32} {seed : List U8}
    {keys : List Key} {data : List U32} {label p : U64} {f : BinaryFuseP32} (hl : data.length = keys.length)
    (h : BinaryFuseP32.fromVec prof segExp cap0 fp0 seed keys data label p = .ok f) :
    BinaryFuseP32.fromSlice prof segExp cap0 fp0 seed keys data label p = .ok f := by
  unfold BinaryFuseP32.fromSlice
  rw [if_neg (by omega)]
  exact h

/-- Whether a key-value database can be built does not depend on the initial contents. -/
theorem kvNew_all {prof : Profile} {segExp cap0 : Nat} {fp1 : Nat → Nat → U32} {seed : List U8}
    {kvs : List KeyValue} {m T b : Nat} (hb : b ≤ 31) {db1 : KVDatabase}
    (h : KVDatabase.new prof segExp cap0 fp1 seed kvs m T b = .ok db1) (fp0 : Nat → Nat → U32) :
    ∃ db, KVDatabase.new prof segExp cap0 fp0 seed kvs m T b = .ok db := by
  unfold KVDatabase.new at h
  obtain ⟨kv0, h1, h⟩ := Res.bind_eq_ok.1 h
  obtain ⟨⟨filters, geom⟩, h2, h⟩ := Res.bind_eq_ok.1 h
  obtain ⟨h0, rfl⟩ := rd_eq_ok' h1
  unfold storageFiltersFromKvs at h2
  obtain ⟨filters', h4, h2⟩ := Res.bind_eq_ok.1 h2
  obtain ⟨f0, h5, h2⟩ := Res.bind_eq_ok.1 h2
  obtain ⟨hf0, _⟩ := rd_eq_ok' h5
  have hfl := mapRes_length h4
  rw [List.length_range] at hfl
  have hcol : ∀ j ∈ List.range kvs[0].value.length, ∃ (f : BinaryFuseP32) (col : List U32),
      columnFilter prof segExp cap0 fp0 seed kvs b j = .ok f ∧ f.getFingerprintsMod = .ok col := by
    intro j hj
    rw [List.mem_range] at hj
    have e := mapRes_getElem h4 (i := j) (by simpa using hj) (by omega)
    rw [List.getElem_range] at e
    unfold columnFilter at e
    obtain ⟨data, e1, e⟩ := Res.bind_eq_ok.1 e
    obtain ⟨p, e2, e⟩ := Res.bind_eq_ok.1 e
    have e3 := unwrap_eq_ok e
    obtain ⟨hdl, lay, s, hlay, _⟩ := fromSlice_wf e3
    have hpv := pow2U64_val hb e2
    have hseed := fromSlice_seed (by simpa using h0) e3
    obtain ⟨c, _, hc⟩ := retrieve_affine hb hseed hlay hpv (fromSlice_fromVec e3) kvs[0].key
    obtain ⟨K, hK⟩ := hc data _ (BitVec.ofNat 64 j) p (fp1 j) _ hpv (fromSlice_fromVec e3)
    obtain ⟨f, r, k1, k2, _⟩ := hK (fp0 j)
    obtain ⟨col, _, _, _, _, _, _, _, _, k3, _⟩ := C36_unmask prof segExp cap0 (fp0 j) seed _ data _ p f k1 b hb hpv hseed kvs[0].key
      (BitVec.ofNat 64 j)
    refine ⟨f, col, ?_, k3⟩
    unfold columnFilter
    rw [e1, Res.bind_ok, e2, Res.bind_ok, fromSlice_of_fromVec hdl k1]
    rfl
  classical
  have : Nonempty BinaryFuseP32 := ⟨f0⟩
  choose! F col hF hcolF using hcol
  unfold KVDatabase.new
  rw [h1, Res.bind_ok]
  unfold storageFiltersFromKvs
  rw [mapRes_ok_of_forall hF, Res.bind_ok, rd_ok (by simp; omega)]
  rw [Res.bind_ok]
  simp only [Res.bind_ok]
  rw [mapRes_ok_of_forall (g := fun f => if h : ∃ c, f.getFingerprintsMod = .ok c then h.choose else []) (by
    intro f hf
    obtain ⟨j, hj, rfl⟩ := List.mem_map.1 hf
    rw [dif_pos ⟨_, hcolF j hj⟩]
    exact Exists.choose_spec (p := fun c => (F j).getFingerprintsMod = .ok c) ⟨_, hcolF j hj⟩)]
  exact ⟨_, rfl⟩

theorem cellValue_unique {prof : Profile} {fp : FilterParams} {b : Nat} {key : Key} {j : Nat} {col : List U32} {v v' : Nat}
    (h : CellValue prof fp b key j col v) (h' : CellValue prof fp b key j col v') : v = v' := by
  obtain ⟨i₁, i₂, i₃, fpr, e1, _, _, _, e2, e3⟩ := h
  obtain ⟨j₁, j₂, j₃, fpr', d1, _, _, _, d2, d3⟩ := h'
  rw [e1] at d1
  rw [e2] at d2
  simp only [Res.ok.injEq, List.cons.injEq, and_true] at d1 d2
  obtain ⟨rfl, rfl, rfl⟩ := d1
  subst d2
  rw [e3, d3]

open Classical in
/-- **C95 (databases).** If a key-value database can be built with some initial contents, it can be built with all. For every key
there is a power of two `2^t` such that, over all initial contents of the `w` columns, what the columns say about the key is
equidistributed, jointly, on the vectors of values below `2^b` whose entries have fixed residues modulo `2^t`; and `t = 0` if one
slot of the key is used by no stored key (in release builds no slot may carry 64 or more keys). -/
theorem C95_kv_distribution (prof : Profile) (segExp cap0 b : Nat) (hb : b ≤ 31) (fp1 : Nat → Nat → U32) (seed : List U8)
    (kvs : List KeyValue) (m T : Nat) (db1 : KVDatabase)
    (h : KVDatabase.new prof segExp cap0 fp1 seed kvs m T b = .ok db1) (key : Key) :
    (∀ fp0, ∃ db, KVDatabase.new prof segExp cap0 fp0 seed kvs m T b = .ok db) ∧
    ∃ (n : Nat) (h0 : 0 < kvs.length), (∀ c ∈ db1.entries, c.length = n) ∧ db1.entries.length = kvs[0].value.length ∧
    ∃ t ≤ b, ∃ v₀ : Fin kvs[0].value.length → Nat,
      ((prof = .debug ∨ ∀ s, slotLoad seed db1.filterParams.geom (kvs.map (·.key)) s < 64) →
        (∃ s, slotLoad seed db1.filterParams.geom [key] s = 1 ∧
          slotLoad seed db1.filterParams.geom (kvs.map (·.key)) s = 0) → t = 0) ∧
      ∀ v : Fin kvs[0].value.length → Nat, (∀ j, v j < 2 ^ b) →
        (univ.filter fun x : Fin kvs[0].value.length → Fin n → Fin (2 ^ 32) =>
          ∃ db : KVDatabase, KVDatabase.new prof segExp cap0 (fills x) seed kvs m T b = Res.ok db ∧
            db.filterParams = db1.filterParams ∧ ∀ j : Fin kvs[0].value.length,
              ∃ col : List U32, db.entries[j.val]? = some col ∧ CellValue prof db.filterParams b key j col (v j)).card *
            (2 ^ (b - t)) ^ kvs[0].value.length =
          if ∀ j, v j % 2 ^ t = v₀ j then ((2 ^ 32) ^ n) ^ kvs[0].value.length else 0 := by
  have hall := kvNew_all hb h
  refine ⟨hall, ?_⟩
  obtain ⟨lay, p, w, h0, hwv, hw0, hlay, hp, hfp, hdm, hdT, hdb', hel, hcols⟩ := kvNew_ok h
  subst hwv
  have hpv := pow2U64_val hb hp
  have hlay' : bfLayout (kvs.map (·.key)).length segExp cap0 = .ok lay := by rw [List.length_map]; exact hlay
  obtain ⟨d0, f0, _, _, hF0, _⟩ := hcols 0 (by omega)
  have hseed := fromSlice_seed (by simpa using h0) hF0
  obtain ⟨c, hone, hc⟩ := retrieve_affine hb hseed hlay' hpv (fromSlice_fromVec hF0) key
  obtain ⟨t, ht, hdiv, hcard⟩ := card_affine (n := lay.arrayLen) (show b ≤ 32 by omega) c
  -- the constant of every column
  have hKall : ∀ j : Fin kvs[0].value.length, ∃ K : ZMod (2 ^ b), ∀ (fp0 : Nat → Nat → U32) (db : KVDatabase),
      KVDatabase.new prof segExp cap0 fp0 seed kvs m T b = .ok db → db.filterParams = db1.filterParams ∧
      ∃ (col : List U32) (r : U32), db.entries[j.val]? = some col ∧ CellValue prof db.filterParams b key j col r.toNat ∧
        r.toNat < 2 ^ b ∧
        (r.toNat : ZMod (2 ^ b)) = K + ∑ i ∈ range lay.arrayLen, c i * ((fp0 j i).toNat : ZMod (2 ^ b)) := by
    intro j
    obtain ⟨data, f, hdl, hdv, hF, _⟩ := hcols j.val (by omega)
    obtain ⟨K, hK⟩ := hc data _ (BitVec.ofNat 64 j) p (fp1 j) _ hpv (fromSlice_fromVec hF)
    refine ⟨K, ?_⟩
    intro fp0 db hdb
    obtain ⟨lay2, p2, w2, g0, gwv, gw0, glay, gp, gfp, gdm, gdT, gdb', gel, gcols⟩ := kvNew_ok hdb
    rw [hlay] at glay
    cases glay
    rw [hp] at gp
    cases gp
    have hjl : j.val < db.entries.length := by omega
    obtain ⟨data', f', hdl', hdv', hF', _, _, _, hpub, _⟩ := gcols j.val hjl
    have hdd : data' = data := by
      apply List.ext_getElem (by omega)
      intro i h1 h2
      obtain ⟨_, e1⟩ := hdv i (by omega) h2
      obtain ⟨_, e2⟩ := hdv' i (by omega) h1
      rw [e1, e2]
    subst hdd
    obtain ⟨f'', r, k1, k2, k3, k4⟩ := hK (fp0 j)
    rw [fromSlice_fromVec hF'] at k1
    cases k1
    refine ⟨by rw [gfp, hfp], db.entries[j.val], r, List.getElem?_eq_getElem hjl, ?_, k3, k4⟩
    exact cellValue_of_column hb hdb hjl hp ⟨hdl', hdv', hF', hpub⟩ key r k2
  choose K hK using hKall
  refine ⟨lay.arrayLen, h0, ?_, hel, t, ht, fun j => (K j).val % 2 ^ t, ?_, ?_⟩
  · intro col hcol
    obtain ⟨j, hj, rfl⟩ := List.getElem_of_mem hcol
    obtain ⟨_, _, _, _, _, _, _, _, _, hl⟩ := hcols j hj
    exact hl
  · rw [hfp]
    rintro hload ⟨s, hs1, hs0⟩
    obtain ⟨hs, hcs⟩ := hone hload s hs1 hs0
    by_contra hne
    have h1 := hdiv s hs
    rw [hcs] at h1
    have : Fact (1 < 2 ^ b) := ⟨Nat.one_lt_two_pow (by omega)⟩
    rw [ZMod.val_one] at h1
    have := Nat.le_of_dvd (by omega) h1
    have h2 : 2 ^ 1 ≤ 2 ^ t := Nat.pow_le_pow_right (by omega) (by omega)
    omega
  · intro v hv
    have hset : (univ.filter fun x : Fin kvs[0].value.length → Fin lay.arrayLen → Fin (2 ^ 32) =>
          ∃ db : KVDatabase, KVDatabase.new prof segExp cap0 (fills x) seed kvs m T b = Res.ok db ∧
            db.filterParams = db1.filterParams ∧ ∀ j : Fin kvs[0].value.length,
              ∃ col : List U32, db.entries[j.val]? = some col ∧ CellValue prof db.filterParams b key j col (v j)) =
        Fintype.piFinset fun j => univ.filter fun x : Fin lay.arrayLen → Fin (2 ^ 32) =>
          K j + ∑ i : Fin lay.arrayLen, c i.val * ((x i).val : ZMod (2 ^ b)) = (v j : ZMod (2 ^ b)) := by
      ext x
      simp only [mem_filter, mem_univ, true_and, Fintype.mem_piFinset]
      obtain ⟨db, hdb⟩ := hall (fills x)
      constructor
      · rintro ⟨db', e1, _, e2⟩ j
        obtain ⟨_, col, r, k1, k2, k3, k4⟩ := hK j _ _ e1
        obtain ⟨col', k1', k2'⟩ := e2 j
        rw [k1] at k1'
        cases k1'
        rw [fills_lt, sum_fill] at k4
        rw [← k4, cellValue_unique k2 k2']
      · intro hx
        refine ⟨db, hdb, (hK ⟨0, hw0⟩ _ _ hdb).1, ?_⟩
        intro j
        obtain ⟨_, col, r, k1, k2, k3, k4⟩ := hK j _ _ hdb
        rw [fills_lt, sum_fill, hx j, cast_eq_iff k3 (hv j)] at k4
        exact ⟨col, k1, k4 ▸ k2⟩
    rw [hset, Fintype.card_piFinset]
    have hpow : (2 ^ (b - t)) ^ kvs[0].value.length = ∏ _j : Fin kvs[0].value.length, 2 ^ (b - t) := by simp
    rw [hpow, ← Finset.prod_mul_distrib, Finset.prod_congr rfl (fun j _ => hcard (K j) (v j) (hv j))]
    by_cases hcase : ∀ j, v j % 2 ^ t = (K j).val % 2 ^ t
    · rw [if_pos hcase, Finset.prod_congr rfl (fun j _ => if_pos (hcase j))]
      simp
    · rw [if_neg hcase]
      push Not at hcase
      obtain ⟨j, hj⟩ := hcase
      exact Finset.prod_eq_zero (mem_univ j) (if_neg hj)

end Chalamet
