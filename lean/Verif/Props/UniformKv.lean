import Verif.Lemmas.UniformKv
import Verif.Props.AbsentKeys
import Verif.Props.RandomDb
import Verif.Props.KvRevealMax
import Verif.Props.FailureKv
import Verif.Props.Witnesses

/-!
# C115: the matrix of a key-value database of random values

A column of a key-value database is computed from the values and from random words (feature `uniform-random`). If the values are
uniform digits too, the matrix is uniform: every matrix of digits is produced equally often, whatever the keys. The mean failure rate
of keyword retrieval follows as in C114.
-/

namespace Chalamet
open Spec Finset

/-- Entries with the given keys and values; a value is a row of `w` digits of `b` bits. -/
def Spec.kvsOf {n w b : Nat} (keys : Fin n → Key) (vals : Fin n → Fin w → Fin (2 ^ b)) : List KeyValue :=
  List.ofFn fun i => { key := keys i, value := List.ofFn fun j => BitVec.ofNat 32 (vals i j) }

/-- The matrix with columns `c 0`, `c 1`, ... as stored by the server. -/
def Spec.matrixOf {w N b : Nat} (c : Fin w → Fin N → Fin (2 ^ b)) : List (List U32) :=
  List.ofFn fun j => List.ofFn fun s => BitVec.ofNat 32 (c j s)

theorem toNat_digit {b : Nat} (hb : b ≤ 31) (v : Fin (2 ^ b)) : (BitVec.ofNat 32 v).toNat = v := by
  rw [BitVec.toNat_ofNat, Nat.mod_eq_of_lt]
  exact v.2.trans (Nat.pow_lt_pow_right (by omega) (by omega))

theorem matrixOf_inj {w N b : Nat} (hb : b ≤ 31) {c c' : Fin w → Fin N → Fin (2 ^ b)} (h : matrixOf c = matrixOf c') : c = c' := by
  unfold matrixOf at h
  have h1 := List.ofFn_injective h
  funext j s
  have h2 := congrFun (List.ofFn_injective (congrFun h1 j)) s
  have h3 := congrArg BitVec.toNat h2
  rw [toNat_digit hb, toNat_digit hb] at h3
  exact Fin.ext h3

theorem kvsOf_keys {n w b : Nat} (keys : Fin n → Key) (vals : Fin n → Fin w → Fin (2 ^ b)) :
    (kvsOf keys vals).map (·.key) = List.ofFn keys := by
  unfold kvsOf
  rw [List.map_ofFn]
  rfl

/-- Whether a key-value database can be built depends neither on the values nor on the initial contents. -/
theorem kvNew_any {prof : Profile} {segExp cap0 : Nat} {fp1 : Nat → Nat → U32} {seed : List U8}
    {kvs1 : List KeyValue} {m T b : Nat} (hb : b ≤ 31) {db1 : KVDatabase}
    (h : KVDatabase.new prof segExp cap0 fp1 seed kvs1 m T b = .ok db1)
    (hload : prof = .debug ∨ ∀ s, slotLoad seed db1.filterParams.geom (kvs1.map (·.key)) s < 64)
    {kvs : List KeyValue} (hk : kvs.map (·.key) = kvs1.map (·.key)) {w : Nat} (hw0 : 0 < w) (hw : ∀ kv ∈ kvs, kv.value.length = w)
    (fp0 : Nat → Nat → U32) :
    ∃ db, KVDatabase.new prof segExp cap0 fp0 seed kvs m T b = .ok db := by
  obtain ⟨lay, p, w1, h0, hwv, hw1, hlay, hp, hfp, hdm, hdT, hdb', hel, hcols⟩ := kvNew_ok h
  have hpv := pow2U64_val hb hp
  have hlen : kvs.length = kvs1.length := by simpa using congrArg List.length hk
  have hlay' : bfLayout (kvs1.map (·.key)).length segExp cap0 = .ok lay := by rw [List.length_map]; exact hlay
  obtain ⟨d1, f1, _, _, hF1, _⟩ := hcols 0 (by omega)
  rw [hfp] at hload
  obtain ⟨hashes, hh, hany, _⟩ := bfp_shift hb hlay' hpv hload (fromSlice_fromVec hF1)
  have hcol : ∀ j ∈ List.range w, ∃ f : BinaryFuseP32, columnFilter prof segExp cap0 fp0 seed kvs b j = .ok f ∧
      f.ptxtMod = p := by
    intro j hj
    rw [List.mem_range] at hj
    have hdata : mapRes (fun kv : KeyValue => rd kv.value j) kvs = .ok (kvs.map fun kv => kv.value.getD j 0#32) := by
      apply mapRes_ok_of_forall
      intro kv hkv
      have := hw kv hkv
      rw [rd_ok (by omega), getD_lt]
    obtain ⟨f, hf, _, _, hfp, _⟩ := hany (kvs.map fun kv => kv.value.getD j 0#32) (BitVec.ofNat 64 j) (fp0 j) (by simp [hlen])
    refine ⟨f, ?_, hfp⟩
    unfold columnFilter
    rw [hdata, Res.bind_ok, hp, Res.bind_ok, hk, fromSlice_of_fromVec (by simp [hlen]) hf]
    rfl
  classical
  have : Nonempty BinaryFuseP32 := ⟨f1⟩
  choose! F hF hFp using hcol
  unfold KVDatabase.new
  have hk0 : 0 < kvs.length := by omega
  rw [rd_ok hk0, Res.bind_ok, hw _ (List.getElem_mem hk0)]
  unfold storageFiltersFromKvs
  rw [mapRes_ok_of_forall hF, Res.bind_ok, rd_ok (by simp; omega), Res.bind_ok]
  simp only [Res.bind_ok]
  have hlt : p.toNat < 2 ^ 32 := by rw [hpv]; exact Nat.pow_lt_pow_right (by omega) (by omega)
  have hne := setWidth_ne_zero (by rw [hpv]; exact Nat.two_pow_pos b) hlt
  rw [mapRes_ok_of_forall (g := fun f : BinaryFuseP32 => f.fingerprints.map (· % (f.ptxtMod.setWidth 32 : U32))) (by
    intro f hf
    obtain ⟨j, hj, rfl⟩ := List.mem_map.1 hf
    unfold BinaryFuseP32.getFingerprintsMod
    apply mapRes_ok_of_forall
    intro x _
    rw [hFp j hj]
    simp [hne])]
  exact ⟨_, rfl⟩

theorem kvsOf_length {n w b : Nat} (keys : Fin n → Key) (vals : Fin n → Fin w → Fin (2 ^ b)) : (kvsOf keys vals).length = n := by
  simp [kvsOf]

theorem kvsOf_width {n w b : Nat} (keys : Fin n → Key) (vals : Fin n → Fin w → Fin (2 ^ b)) :
    ∀ kv ∈ kvsOf keys vals, kv.value.length = w := by
  intro kv hkv
  unfold kvsOf at hkv
  rw [List.mem_ofFn] at hkv
  obtain ⟨i, rfl⟩ := hkv
  simp

/-- The published cells as residues of the cells. -/
theorem published_cast {f : BinaryFuseP32} {b : Nat} (hb : b ≤ 31) (hp : f.ptxtMod.toNat = 2 ^ b)
    {col : List U32} (h : f.getFingerprintsMod = .ok col) (s : Nat) :
    ((col.getD s 0#32).toNat : ZMod (2 ^ b)) = ((f.fingerprints.getD s 0#32).toNat : ZMod (2 ^ b)) := by
  have hlt : f.ptxtMod.toNat < 2 ^ 32 := by rw [hp]; exact Nat.pow_lt_pow_right (by omega) (by omega)
  have hpn : (f.ptxtMod.setWidth 32 : U32).toNat = 2 ^ b := by rw [setWidth_toNat_lt hlt, hp]
  have hne := setWidth_ne_zero (by rw [hp]; exact Nat.two_pow_pos b) hlt
  unfold BinaryFuseP32.getFingerprintsMod at h
  have hl := mapRes_length h
  rcases Nat.lt_or_ge s col.length with hs | hs
  · have e := mapRes_getElem h (i := s) (by omega) hs
    simp only [hne, if_false, Res.ok.injEq] at e
    rw [getD_lt hs, getD_lt (by omega), ← e, cast_mod hpn]
  · rw [List.getD_eq_getElem?_getD, List.getD_eq_getElem?_getD, List.getElem?_eq_none (by omega), List.getElem?_eq_none (by omega)]

/-- The entries of a database are a matrix of digits. -/
theorem kvNew_matrix {prof : Profile} {segExp cap0 : Nat} {fp0 : Nat → Nat → U32} {seed : List U8} {n w m T b : Nat} (hb : b ≤ 31)
    {keys : Fin n → Key} {vals : Fin n → Fin w → Fin (2 ^ b)} {db : KVDatabase} {lay : Layout}
    (hlay : bfLayout n segExp cap0 = .ok lay)
    (h : KVDatabase.new prof segExp cap0 fp0 seed (kvsOf keys vals) m T b = .ok db) :
    ∃ c : Fin w → Fin lay.arrayLen → Fin (2 ^ b), db.entries = matrixOf c := by
  obtain ⟨lay', p, w1, h0, hwv, hw1, hlay', hp, hfp, hdm, hdT, hdb', hel, hcols⟩ := kvNew_ok h
  rw [kvsOf_length, hlay] at hlay'
  cases hlay'
  have hw : w1 = w := by rw [hwv]; exact kvsOf_width keys vals _ (List.getElem_mem h0)
  subst hw
  have hpv := pow2U64_val hb hp
  have hbound : ∀ j (hj : j < db.entries.length) s (hs : s < db.entries[j].length), (db.entries[j][s]).toNat < 2 ^ b := by
    intro j hj s hs
    obtain ⟨data, f, hdl, hdv, hF, hg, hsd, hfl, hpub, hl⟩ := hcols j hj
    obtain ⟨_, _, _, _, _, _, _, _, hpm⟩ := fromSlice_wf hF
    exact published_lt hb (by rw [hpm]; exact hpv) hpub _ (List.getElem_mem hs)
  have hlen : ∀ j (hj : j < db.entries.length), db.entries[j].length = lay.arrayLen := by
    intro j hj
    obtain ⟨data, f, hdl, hdv, hF, hg, hsd, hfl, hpub, hl⟩ := hcols j hj
    exact hl
  refine ⟨fun j s => ⟨(db.entries[j.val]'(by omega))[s.val]'(by rw [hlen]; exact s.2) |>.toNat, hbound _ _ _ _⟩, ?_⟩
  apply List.ext_getElem
  · simp [matrixOf, hel]
  · intro j h1 h2
    apply List.ext_getElem
    · simp [matrixOf, hlen j h1]
    · intro s h3 h4
      simp [matrixOf]

theorem matrixOf_getD {w N b : Nat} (hb : b ≤ 31) (c : Fin w → Fin N → Fin (2 ^ b)) (j : Fin w) (s : Fin N) :
    (((matrixOf c)[j.val]'(by simp [matrixOf])).getD s 0#32).toNat = c j s := by
  rw [getD_lt (by simp [matrixOf])]
  simp only [matrixOf, List.getElem_ofFn]
  exact toNat_digit hb _

/-- Shifting the values and the initial contents shifts the matrix. -/
theorem kvNew_shift {prof : Profile} {segExp cap0 : Nat} {seed : List U8} {n w m T b : Nat} (hb : b ≤ 31)
    {keys : Fin n → Key} {lay : Layout} (hlay : bfLayout n segExp cap0 = .ok lay)
    (hload : prof = .debug ∨ ∀ s, slotLoad seed lay.geom (List.ofFn keys) s < 64)
    {hashes : List U64} (hh : mapRes (fun k => mix256 k seed) (List.ofFn keys) = .ok hashes) (hhl : hashes.length = n)
    {fp fp' : Nat → Nat → U32} {vals vals' : Fin n → Fin w → Fin (2 ^ b)} {db db' : KVDatabase}
    {c c' : Fin w → Fin lay.arrayLen → Fin (2 ^ b)}
    (h : KVDatabase.new prof segExp cap0 fp seed (kvsOf keys vals) m T b = .ok db)
    (h' : KVDatabase.new prof segExp cap0 fp' seed (kvsOf keys vals') m T b = .ok db')
    (hc : db.entries = matrixOf c) (hc' : db'.entries = matrixOf c') (j : Fin w) (δ : Nat → ZMod (2 ^ b))
    (hv : ∀ i : Fin n, ((vals' i j : ℕ) : ZMod (2 ^ b)) = ((vals i j : ℕ) : ZMod (2 ^ b)) +
      slotSum lay.geom δ (hashes[i.val]'(by omega)))
    (hf : ∀ s < lay.arrayLen, ((fp' j s).toNat : ZMod (2 ^ b)) = ((fp j s).toNat : ZMod (2 ^ b)) + δ s) (s : Fin lay.arrayLen) :
    ((c' j s : ℕ) : ZMod (2 ^ b)) = ((c j s : ℕ) : ZMod (2 ^ b)) + δ s := by
  obtain ⟨lay1, p, w1, h0, hwv, hw1, hlay1, hp, hfp, hdm, hdT, hdb1, hel, hcols⟩ := kvNew_ok h
  rw [kvsOf_length, hlay] at hlay1
  cases hlay1
  obtain ⟨lay2, p2, w2, h02, hwv2, hw2, hlay2, hp2, hfp2, hdm2, hdT2, hdb2, hel2, hcols2⟩ := kvNew_ok h'
  rw [kvsOf_length, hlay] at hlay2
  cases hlay2
  rw [hp] at hp2
  cases hp2
  have hpv := pow2U64_val hb hp
  have hjl : j.val < db.entries.length := by rw [hc]; simp [matrixOf]
  have hjl' : j.val < db'.entries.length := by rw [hc']; simp [matrixOf]
  obtain ⟨data, f, hdl, hdv, hF, hg, hsd, hfl, hpub, hl⟩ := hcols j hjl
  obtain ⟨data', f', hdl', hdv', hF', hg', hsd', hfl', hpub', hl'⟩ := hcols2 j hjl'
  obtain ⟨_, _, _, _, _, _, _, _, hpm⟩ := fromSlice_wf hF
  obtain ⟨_, _, _, _, _, _, _, _, hpm'⟩ := fromSlice_wf hF'
  rw [kvsOf_keys] at hF hF'
  rw [kvsOf_length] at hdl hdl'
  have hlay' : bfLayout (List.ofFn keys).length segExp cap0 = .ok lay := by rw [List.length_ofFn]; exact hlay
  obtain ⟨hashes2, hh2, _, hshift⟩ := bfp_shift hb hlay' hpv hload (fromSlice_fromVec hF)
  rw [hh] at hh2
  cases hh2
  have e1 := published_cast hb (by rw [hpm]; exact hpv) hpub s
  have e2 := published_cast hb (by rw [hpm']; exact hpv) hpub' s
  have e3 := hshift data data' (BitVec.ofNat 64 j) (fp j) (fp' j) f f' δ (by simp [hdl]) (by simp [hdl']) (by
    intro i hi hi1 hi2 hi3
    have hin : i < n := by omega
    obtain ⟨q1, q2⟩ := hdv i (by rw [kvsOf_length]; exact hin) hi1
    obtain ⟨q3, q4⟩ := hdv' i (by rw [kvsOf_length]; exact hin) hi2
    rw [q2, q4]
    have t1 : ((kvsOf keys vals)[i]'(by rw [kvsOf_length]; exact hin)).value[j.val] = BitVec.ofNat 32 (vals ⟨i, hin⟩ j) := by
      simp [kvsOf]
    have t2 : ((kvsOf keys vals')[i]'(by rw [kvsOf_length]; exact hin)).value[j.val] = BitVec.ofNat 32 (vals' ⟨i, hin⟩ j) := by
      simp [kvsOf]
    rw [t1, t2, toNat_digit hb, toNat_digit hb]
    exact hv ⟨i, hin⟩) hf (fromSlice_fromVec hF) (fromSlice_fromVec hF') s s.2
  rw [← e1, ← e2] at e3
  simp only [hc, hc'] at e3
  rw [matrixOf_getD hb, matrixOf_getD hb] at e3
  exact e3

theorem fills_cast {w N b : Nat} (x : Fin w → Fin N → Fin (2 ^ 32)) (j : Fin w) {s : Nat} (hs : s < N) :
    ((fills x j s).toNat : ZMod (2 ^ b)) = ((x j ⟨s, hs⟩ : ℕ) : ZMod (2 ^ b)) := by
  rw [fills_lt]
  have := fill_lt (x j) ⟨s, hs⟩
  simp only at this
  rw [this]
  rfl

open scoped Classical in
/-- **C115 (the matrix is uniform).** Take keys for which a key-value database can be built, for some values and some initial
contents of the filters (in release builds no slot may carry 64 or more keys). Then it can be built for all values and contents, and
over all rows of `w` digits as values, and all initial contents, every matrix of `w` columns of digits is the server's matrix equally
often. -/
theorem C115_matrix_uniform (prof : Profile) (segExp cap0 n w m T b : Nat) (hb : b ≤ 31) (seed : List U8) (keys : Fin n → Key)
    (vals1 : Fin n → Fin w → Fin (2 ^ b)) (fp1 : Nat → Nat → U32) (db1 : KVDatabase)
    (h1 : KVDatabase.new prof segExp cap0 fp1 seed (kvsOf keys vals1) m T b = .ok db1)
    (hload : prof = .debug ∨ ∀ s, slotLoad seed db1.filterParams.geom (List.ofFn keys) s < 64) :
    ∃ N, 0 < N ∧ (∀ col ∈ db1.entries, col.length = N) ∧
    (∀ (vals : Fin n → Fin w → Fin (2 ^ b)) (fp0 : Nat → Nat → U32), ∃ db,
      KVDatabase.new prof segExp cap0 fp0 seed (kvsOf keys vals) m T b = .ok db ∧ db.filterParams = db1.filterParams ∧
      ∃ c : Fin w → Fin N → Fin (2 ^ b), db.entries = matrixOf c) ∧
    ∀ c : Fin w → Fin N → Fin (2 ^ b),
      (univ.filter fun a : (Fin n → Fin w → Fin (2 ^ b)) × (Fin w → Fin N → Fin (2 ^ 32)) =>
        ∃ db, KVDatabase.new prof segExp cap0 (fills a.2) seed (kvsOf keys a.1) m T b = .ok db ∧
          db.entries = matrixOf c).card * ((2 ^ b) ^ N) ^ w = ((2 ^ b) ^ w) ^ n * ((2 ^ 32) ^ N) ^ w := by
  obtain ⟨lay, p, w1, h0, hwv, hw1, hlay, hp, hfp, hdm, hdT, hdb', hel, hcols⟩ := kvNew_ok h1
  rw [kvsOf_length] at hlay
  have hw : w1 = w := by rw [hwv]; exact kvsOf_width keys vals1 _ (List.getElem_mem h0)
  subst hw
  have hpv := pow2U64_val hb hp
  have hall : ∀ (vals : Fin n → Fin w1 → Fin (2 ^ b)) (fp0 : Nat → Nat → U32), ∃ db,
      KVDatabase.new prof segExp cap0 fp0 seed (kvsOf keys vals) m T b = .ok db ∧ db.filterParams = db1.filterParams ∧
      ∃ c : Fin w1 → Fin lay.arrayLen → Fin (2 ^ b), db.entries = matrixOf c := by
    intro vals fp0
    obtain ⟨db, hdb⟩ := kvNew_any hb h1 (by rw [kvsOf_keys]; exact hload) (kvs := kvsOf keys vals)
      (by rw [kvsOf_keys, kvsOf_keys]) hw1 (kvsOf_width keys vals) fp0
    refine ⟨db, hdb, ?_, kvNew_matrix hb hlay hdb⟩
    obtain ⟨lay2, p2, w2, _, _, _, hlay2, _, hfp2, _⟩ := kvNew_ok hdb
    rw [kvsOf_length, hlay] at hlay2
    cases hlay2
    rw [hfp, hfp2]
  rw [hfp] at hload
  obtain ⟨data1, f1, hdl1, _, hF1, _⟩ := hcols 0 (by omega)
  rw [kvsOf_keys] at hF1
  have hlay' : bfLayout (List.ofFn keys).length segExp cap0 = .ok lay := by rw [List.length_ofFn]; exact hlay
  obtain ⟨hashes, hh, _, _⟩ := bfp_shift hb hlay' hpv hload (fromSlice_fromVec hF1)
  have hhl : hashes.length = n := by have := mapRes_length hh; simpa using this
  have hN : 0 < lay.arrayLen := by
    obtain ⟨sg, _, hg⟩ := bfLayout_wf hlay
    have := (slotsOk hg 0#64).l0
    omega
  refine ⟨lay.arrayLen, hN, ?_, hall, ?_⟩
  · intro col hcol
    obtain ⟨j, hj, rfl⟩ := List.getElem_of_mem hcol
    obtain ⟨_, _, _, _, _, _, _, _, _, hl⟩ := hcols j hj
    exact hl
  · intro c
    have hne : NeZero (2 ^ b) := ⟨by positivity⟩
    have hch : ∀ a : (Fin n → Fin w1 → Fin (2 ^ b)) × (Fin w1 → Fin lay.arrayLen → Fin (2 ^ 32)),
        ∃ c : (Fin w1 → Fin lay.arrayLen → Fin (2 ^ b)), ∃ db, KVDatabase.new prof segExp cap0 (fills a.2) seed (kvsOf keys a.1) m T b = .ok db ∧
        db.entries = matrixOf c := by
      intro a
      obtain ⟨db, e1, _, c, e2⟩ := hall a.1 (fills a.2)
      exact ⟨c, db, e1, e2⟩
    choose f db hdb hf using hch
    let δ : (Fin w1 → Fin lay.arrayLen → Fin (2 ^ b)) → (Fin w1 → Fin lay.arrayLen → Fin (2 ^ b)) →
        Fin w1 → Nat → ZMod (2 ^ b) := fun c c' j s =>
      if h : s < lay.arrayLen then ((c' j ⟨s, h⟩ : ℕ) : ZMod (2 ^ b)) - ((c j ⟨s, h⟩ : ℕ) : ZMod (2 ^ b)) else 0
    let Φ : (Fin w1 → Fin lay.arrayLen → Fin (2 ^ b)) → (Fin w1 → Fin lay.arrayLen → Fin (2 ^ b)) →
        ((Fin n → Fin w1 → Fin (2 ^ b)) × (Fin w1 → Fin lay.arrayLen → Fin (2 ^ 32))) →
        ((Fin n → Fin w1 → Fin (2 ^ b)) × (Fin w1 → Fin lay.arrayLen → Fin (2 ^ 32))) := fun c c' a =>
      (fun i j => ⟨(((a.1 i j : ℕ) : ZMod (2 ^ b)) + slotSum lay.geom (δ c c' j) (hashes[i.val]'(by omega))).val, ZMod.val_lt _⟩,
       fun j s => ⟨((a.2 j s : ℕ) + (δ c c' j s).val) % 2 ^ 32, Nat.mod_lt _ (by positivity)⟩)
    have hcard := card_fibre f Φ ?_ ?_ c
    · have e1 : Fintype.card (Fin w1 → Fin lay.arrayLen → Fin (2 ^ b)) = ((2 ^ b) ^ lay.arrayLen) ^ w1 := by simp
      have e2 : Fintype.card ((Fin n → Fin w1 → Fin (2 ^ b)) × (Fin w1 → Fin lay.arrayLen → Fin (2 ^ 32))) =
          ((2 ^ b) ^ w1) ^ n * ((2 ^ 32) ^ lay.arrayLen) ^ w1 := by simp
      rw [e1, e2] at hcard
      rw [← hcard]
      refine congrArg (fun s => Finset.card s * _) (Finset.filter_congr ?_)
      intro a _
      constructor
      · rintro ⟨db', e3, e4⟩
        rw [hdb a] at e3
        cases e3
        rw [hf a] at e4
        exact matrixOf_inj hb e4
      · rintro rfl
        exact ⟨db a, hdb a, hf a⟩
    · rintro c c' ⟨v, x⟩ ⟨v', x'⟩ he
      have e1 := congrArg Prod.fst he
      have e2 := congrArg Prod.snd he
      simp only [Φ] at e1 e2
      refine Prod.ext ?_ ?_
      · funext i j
        have := congrArg Fin.val (congrFun (congrFun e1 i) j)
        simp only at this
        have := add_right_cancel (ZMod.val_injective _ this)
        rw [cast_eq_iff (v i j).2 (v' i j).2] at this
        exact Fin.ext this
      · funext j s
        have := congrArg Fin.val (congrFun (congrFun e2 j) s)
        simp only at this
        have h2 := Nat.ModEq.add_right_cancel' _ this
        unfold Nat.ModEq at h2
        rw [Nat.mod_eq_of_lt (x j s).2, Nat.mod_eq_of_lt (x' j s).2] at h2
        exact Fin.ext h2
    · intro c c' a ha
      subst ha
      funext j s
      have := kvNew_shift hb hlay hload hh hhl (hdb a) (hdb (Φ (f a) c' a)) (hf a) (hf _) j (δ (f a) c' j) (by
        intro i
        simp only [Φ]
        rw [ZMod.natCast_zmod_val]) (by
        intro s hs
        rw [fills_cast _ _ hs, fills_cast _ _ hs]
        simp only [Φ]
        rw [natCast_mod_pow (by omega), Nat.cast_add, ZMod.natCast_zmod_val]) s
      simp only [δ, s.2, dif_pos] at this
      rw [add_sub_cancel, cast_eq_iff (Fin.isLt _) (Fin.isLt _)] at this
      exact Fin.ext this

/-! ## Failure rate -/

theorem sum_of_fibres {A C : Type} [Fintype A] [Fintype C] [DecidableEq C] (f : A → C)
    (h : ∀ c, (univ.filter fun a => f a = c).card * Fintype.card C = Fintype.card A) (G : C → ℝ) :
    (Fintype.card C : ℝ) * ∑ a, G (f a) = Fintype.card A * ∑ c, G c := by
  rw [← sum_fiberwise univ f (fun a => G (f a)), mul_sum, mul_sum]
  refine sum_congr rfl fun c _ => ?_
  rw [sum_congr rfl (g := fun _ => G c) (by
    intro a ha
    rw [(mem_filter.1 ha).2]), sum_const, nsmul_eq_mul, ← h c]
  push_cast
  ring

theorem sum_coord {w : Nat} {D : Type} [Fintype D] [DecidableEq D] (j : Fin w) (G : D → ℝ) :
    (Fintype.card D : ℝ) * ∑ c : Fin w → D, G (c j) = Fintype.card (Fin w → D) * ∑ d, G d := by
  have e1 : ∑ c : Fin w → D, G (c j) = ∑ p : D × ({k : Fin w // k ≠ j} → D), G p.1 :=
    Fintype.sum_equiv (Equiv.funSplitAt j D) _ _ (fun c => rfl)
  have e2 : Fintype.card (Fin w → D) = Fintype.card D * Fintype.card ({k : Fin w // k ≠ j} → D) := by
    rw [Fintype.card_congr (Equiv.funSplitAt j D), Fintype.card_prod]
  rw [e1, e2, Fintype.sum_prod_type]
  simp only [sum_const, card_univ, nsmul_eq_mul]
  rw [← mul_sum]
  push_cast
  ring

open scoped Classical in
/-- One column of uniform digits: over all columns and error samples. -/
theorem C115_column (N b : Nat) (hb1 : 1 ≤ b) (hb : b ≤ 31) (hN : 0 < N) (hcor : correction N b ≤ 1) :
    ((univ.filter fun p : (Fin N → Fin (2 ^ b)) × (Fin N → Fin 4294967293) =>
        ∃ e rest, randomTernaryVector N (words p.2) = .ok (e, rest) ∧
          ¬ InWindow b (dot e (List.ofFn fun s => BitVec.ofNat 32 (p.1 s)))).card : ℝ) ≤
      2 * Real.exp (-(3 * (2 ^ (31 - b)) ^ 2 / (4 * (N * digitMeanSq b)) * (1 - correction N b))) *
        ((2 ^ b) ^ N * 4294967293 ^ N) := by
  have h := rows_tail (m := N) hb1 hN hcor (X := Fin (2 ^ b)) (fun x => x) (by
    intro y hy hY
    have h2 := mean_exp_le (2 ^ b) (2 ^ b) Nat.one_le_two_pow le_rfl y hy (by push_cast; exact hY)
    push_cast at h2
    rw [Fintype.card_fin]
    unfold digitMeanSq
    rw [pow_succ, mul_comm ((2 : ℝ) ^ b) 2]
    push_cast
    exact h2)
  rw [Fintype.card_fin] at h
  push_cast at h
  refine le_trans (Nat.cast_le.2 (card_le_card ?_)) h
  intro p hp
  rw [mem_filter] at hp
  obtain ⟨_, e, rest, he, hw⟩ := hp
  refine mem_filter.2 ⟨mem_univ _, ?_⟩
  by_contra hlt
  rw [not_le] at hlt
  apply hw
  rw [words_sampled] at he
  simp only [Res.ok.injEq, Prod.mk.injEq] at he
  rw [← he.1]
  simp only [ternaryOf_clsOf]
  rw [dot_ofFn]
  simp only [toNat_digit hb]
  apply inWindow_of_abs_lt hb1
  unfold noiseOf at hlt
  beta_reduce at hlt
  have h2 : ((|∑ i, clsOf 1431655764 (p.2 i) * ((p.1 i : ℕ) : ℤ)| : ℤ) : ℝ) < ((2 ^ (31 - b) : ℤ) : ℝ) := by
    push_cast
    exact_mod_cast hlt
  exact_mod_cast h2

open scoped Classical in
/-- **C115 (failure rate).** Take keys for which a key-value shard can be built. Then it can be built for all values and all initial
contents of the filters, and among all triples of values (rows of digits), contents and error samples at most the fraction
`randomFailureBound` makes the exchange for the `i`-th key (the last one with its hash) return something other than its value, for
every secret. -/
theorem C115_kv_failure_rate (prof : Profile) (prg : Prg) (pseed : List U8) (segExp cap0 : Nat) (seed : List U8) (n d m T b : Nat)
    (hb1 : 1 ≤ b) (hb : b ≤ 31) (hT : T < 2 ^ 64) (keys : Fin n → Key) (vals1 : Fin n → Fin (width T b) → Fin (2 ^ b))
    (fp1 : Nat → Nat → U32) (shard1 : KVShard)
    (hsh1 : KVShard.new prof prg pseed segExp cap0 fp1 seed (kvsOf keys vals1) d m T b = .ok shard1)
    (hload : prof = .debug ∨ ∀ s, slotLoad seed shard1.db.filterParams.geom (List.ofFn keys) s < 64)
    (N : Nat) (hN : shard1.baseParams.m = N) (hcor : correction N b ≤ 1)
    (ts s : List U32) (hs : randomTernaryVector d ts = .ok (s, []))
    (i : Fin n) (hlast : ∀ k, i < k → mix256 (keys k) seed ≠ mix256 (keys i) seed) :
    (∀ (vals : Fin n → Fin (width T b) → Fin (2 ^ b)) (fp0 : Nat → Nat → U32), ∃ shard,
      KVShard.new prof prg pseed segExp cap0 fp0 seed (kvsOf keys vals) d m T b = .ok shard ∧ shard.baseParams.m = N) ∧
    ((univ.filter fun p : ((Fin n → Fin (width T b) → Fin (2 ^ b)) × (Fin (width T b) → Fin N → Fin (2 ^ 32))) ×
          (Fin N → Fin 4294967293) =>
        ∃ shard row, KVShard.new prof prg pseed segExp cap0 (fills p.1.2) seed (kvsOf keys p.1.1) d m T b = .ok shard ∧
          kvExchange prof prg shard (keys i) (ts ++ words p.2) = .ok row ∧
          row ≠ List.ofFn fun j => BitVec.ofNat 32 (p.1.1 i j)).card : ℝ) ≤
      randomFailureBound N T b *
        ((((2 ^ b) ^ width T b) ^ n * ((2 ^ 32) ^ N) ^ width T b) * 4294967293 ^ N) := by
  have hbuilt : ∀ (vals : Fin n → Fin (width T b) → Fin (2 ^ b)) (fp0 : Nat → Nat → U32), ∃ shard,
      KVShard.new prof prg pseed segExp cap0 fp0 seed (kvsOf keys vals) d m T b = .ok shard ∧ shard.baseParams.m = N := by
    intro vals fp0
    obtain ⟨shard, h1, _, h2, _⟩ := C62_values_play_no_part prof prg pseed segExp cap0 fp1 fp0 seed (kvsOf keys vals1)
      (kvsOf keys vals) d m T b hb1 hb shard1 hsh1 (kvsOf_width keys vals1) (kvsOf_width keys vals)
      (by rw [kvsOf_keys, kvsOf_keys])
    exact ⟨shard, h1, by rw [h2, hN]⟩
  refine ⟨hbuilt, ?_⟩
  obtain ⟨hdb1, _⟩ := kvShard_db hsh1
  obtain ⟨N', hN0, hcl, hall, huni⟩ := C115_matrix_uniform prof segExp cap0 n (width T b) m T b hb seed keys vals1 fp1 shard1.db hdb1 hload
  obtain rfl : N' = N := by
    obtain ⟨lay, _, hm, _, _, hent, hlen, _⟩ := kvShard_shape hsh1
    have h1 := hcl _ (List.getElem_mem hent)
    have h2 := hlen _ (List.getElem_mem hent)
    omega
  have hch : ∀ a : (Fin n → Fin (width T b) → Fin (2 ^ b)) × (Fin (width T b) → Fin N' → Fin (2 ^ 32)),
      ∃ c : Fin (width T b) → Fin N' → Fin (2 ^ b), ∃ db,
        KVDatabase.new prof segExp cap0 (fills a.2) seed (kvsOf keys a.1) m T b = .ok db ∧ db.entries = matrixOf c := by
    intro a
    obtain ⟨db, e1, _, c, e2⟩ := hall a.1 (fills a.2)
    exact ⟨c, db, e1, e2⟩
  choose f db hdb hf using hch
  have hfib : ∀ c, (univ.filter fun a => f a = c).card * Fintype.card (Fin (width T b) → Fin N' → Fin (2 ^ b)) =
      Fintype.card ((Fin n → Fin (width T b) → Fin (2 ^ b)) × (Fin (width T b) → Fin N' → Fin (2 ^ 32))) := by
    intro c
    have e1 : Fintype.card (Fin (width T b) → Fin N' → Fin (2 ^ b)) = ((2 ^ b) ^ N') ^ width T b := by simp
    have e2 : Fintype.card ((Fin n → Fin (width T b) → Fin (2 ^ b)) × (Fin (width T b) → Fin N' → Fin (2 ^ 32))) =
        ((2 ^ b) ^ width T b) ^ n * ((2 ^ 32) ^ N') ^ width T b := by simp
    rw [e1, e2, ← huni c]
    refine congrArg (fun s => Finset.card s * _) (Finset.filter_congr ?_)
    intro a _
    constructor
    · rintro rfl
      exact ⟨db a, hdb a, hf a⟩
    · rintro ⟨db', e3, e4⟩
      rw [hdb a] at e3
      cases e3
      rw [hf a] at e4
      exact matrixOf_inj hb e4
  -- the bad samples of a column
  let bad : (Fin N' → Fin (2 ^ b)) → (Fin N' → Fin 4294967293) → Prop := fun c t =>
    ∃ e rest, randomTernaryVector N' (words t) = .ok (e, rest) ∧ ¬ InWindow b (dot e (List.ofFn fun s => BitVec.ofNat 32 (c s)))
  let G : (Fin N' → Fin (2 ^ b)) → ℝ := fun c => ((univ.filter fun t => bad c t).card : ℝ)
  set ε := 2 * Real.exp (-(3 * (2 ^ (31 - b)) ^ 2 / (4 * (N' * digitMeanSq b)) * (1 - correction N' b))) with hε
  have hG : ∑ c, G c ≤ ε * ((2 ^ b) ^ N' * 4294967293 ^ N') := by
    have h := C115_column N' b hb1 hb hN0 hcor
    refine le_trans (le_of_eq ?_) h
    simp only [G]
    rw [← Nat.cast_sum]
    congr 1
    rw [card_filter, Fintype.sum_prod_type]
    refine sum_congr rfl fun c _ => ?_
    rw [card_filter]
  have hcol : ∀ j : Fin (width T b), ∑ a, G (f a j) ≤
      ε * ((((2 ^ b) ^ width T b) ^ n * ((2 ^ 32) ^ N') ^ width T b) * 4294967293 ^ N') := by
    intro j
    have h1 := sum_of_fibres f hfib (fun c => G (c j))
    have h2 := sum_coord j G
    have e2 : (Fintype.card ((Fin n → Fin (width T b) → Fin (2 ^ b)) × (Fin (width T b) → Fin N' → Fin (2 ^ 32))) : ℝ) =
        ((2 ^ b) ^ width T b) ^ n * ((2 ^ 32) ^ N') ^ width T b := by simp; norm_num
    have e3 : (Fintype.card (Fin N' → Fin (2 ^ b)) : ℝ) = (2 ^ b) ^ N' := by simp
    rw [e2] at h1
    rw [e3] at h2
    generalize hA : (((2 : ℝ) ^ b) ^ width T b) ^ n * ((2 ^ 32) ^ N') ^ width T b = A at h1 ⊢
    have hA0 : 0 ≤ A := by rw [← hA]; positivity
    generalize hD : ((2 : ℝ) ^ b) ^ N' = D at h2 hG
    have hD0 : 0 < D := by rw [← hD]; positivity
    have hC0 : (0 : ℝ) < Fintype.card (Fin (width T b) → Fin N' → Fin (2 ^ b)) := by
      exact_mod_cast Fintype.card_pos
    generalize (Fintype.card (Fin (width T b) → Fin N' → Fin (2 ^ b)) : ℝ) = C at h1 h2 hC0
    generalize ∑ a, G (f a j) = x at h1 ⊢
    generalize ∑ c : Fin (width T b) → Fin N' → Fin (2 ^ b), G (c j) = y at h1 h2
    generalize ∑ c, G c = z at h2 hG
    generalize (4294967293 : ℝ) ^ N' = R at hG ⊢
    have h3 : D * x = A * z := by
      have : C * (D * x) = C * (A * z) := by
        calc C * (D * x) = D * (C * x) := by ring
          _ = A * (D * y) := by rw [h1]; ring
          _ = C * (A * z) := by rw [h2]; ring
      exact mul_left_cancel₀ hC0.ne' this
    have h4 : D * x ≤ D * (ε * (A * R)) := by
      rw [h3]
      calc A * z ≤ A * (ε * (D * R)) := mul_le_mul_of_nonneg_left hG hA0
        _ = D * (ε * (A * R)) := by ring
    exact le_of_mul_le_mul_left h4 hD0
  -- every failure has a bad column
  have hsub : (univ.filter fun p : ((Fin n → Fin (width T b) → Fin (2 ^ b)) × (Fin (width T b) → Fin N' → Fin (2 ^ 32))) ×
          (Fin N' → Fin 4294967293) =>
        ∃ shard row, KVShard.new prof prg pseed segExp cap0 (fills p.1.2) seed (kvsOf keys p.1.1) d m T b = .ok shard ∧
          kvExchange prof prg shard (keys i) (ts ++ words p.2) = .ok row ∧
          row ≠ List.ofFn fun j => BitVec.ofNat 32 (p.1.1 i j)) ⊆
      univ.biUnion fun j : Fin (width T b) => univ.filter fun p => bad (f p.1 j) p.2 := by
    rintro ⟨a, t⟩ hp
    simp only [mem_filter, mem_univ, true_and, mem_biUnion] at hp ⊢
    obtain ⟨shard, row, hsh, hex, hne⟩ := hp
    obtain ⟨shard', hsh', hm'⟩ := hbuilt a.1 (fills a.2)
    rw [hsh] at hsh'
    cases hsh'
    have hdba := (kvShard_db hsh).1
    rw [hdb a] at hdba
    simp only [Res.ok.injEq] at hdba
    have hgeom : shard.db.filterParams = shard1.db.filterParams := by
      obtain ⟨db2, e1, e2, _⟩ := hall a.1 (fills a.2)
      rw [hdb a] at e1
      cases e1
      rw [← hdba, e2]
    unfold kvExchange at hex
    obtain ⟨⟨qp, tape'⟩, hgen, hex⟩ := Res.bind_eq_ok.1 hex
    obtain ⟨s', t1, e, hs', he, _, hallx⟩ := C04_kv_pir prof prg pseed segExp cap0 (fills a.2) seed (kvsOf keys a.1) d m
      T b shard hb1 hb hT hsh (kvsOf_width keys a.1) (by rw [hgeom, kvsOf_keys]; exact hload) _ tape' qp hgen
    rw [randomTernaryVector_append hs] at hs'
    simp only [List.nil_append, Res.ok.injEq, Prod.mk.injEq] at hs'
    obtain ⟨rfl, rfl⟩ := hs'
    have hki : ∀ k (hk : k < (kvsOf keys a.1).length), (kvsOf keys a.1)[k] =
        { key := keys ⟨k, by rw [kvsOf_length] at hk; exact hk⟩,
          value := List.ofFn fun j => BitVec.ofNat 32 (a.1 ⟨k, by rw [kvsOf_length] at hk; exact hk⟩ j) } := by
      intro k hk
      simp [kvsOf]
    simp only at hex
    obtain ⟨q, hq, hex2⟩ := Res.bind_eq_ok.1 hex
    obtain ⟨bytes, hby, hex3⟩ := Res.bind_eq_ok.1 hex2
    obtain ⟨resp, hre, hex4⟩ := Res.bind_eq_ok.1 hex3
    obtain ⟨qp', q', bytes', resp', row', hq', hby', hre', hp', _, _, hiff⟩ := hallx i.val (by rw [kvsOf_length]; exact i.2) (by
      intro k hk hik
      rw [hki, hki]
      exact hlast ⟨k, by rw [kvsOf_length] at hk; exact hk⟩ hik)
    rw [hki] at hq' hp' hiff
    simp only at hq' hp' hiff
    rw [hq'] at hq hex4
    simp only [Res.ok.injEq] at hq
    subst hq
    rw [hby] at hby'
    cases hby'
    rw [hre] at hre'
    cases hre'
    rw [hex4] at hp'
    cases hp'
    by_contra hno
    push Not at hno
    apply hne
    have hvals : (List.ofFn fun j => BitVec.ofNat 32 (a.1 i j)).map (fun v : U32 => BitVec.ofNat 32 (v.toNat % 2 ^ b)) =
        List.ofFn fun j => BitVec.ofNat 32 (a.1 i j) := by
      rw [List.map_ofFn]
      congr 1
      funext j
      simp only [Function.comp]
      rw [toNat_digit hb, Nat.mod_eq_of_lt (a.1 i j).2]
    rw [← hvals]
    apply hiff.2
    intro col hcol
    rw [← hdba, hf a] at hcol
    unfold matrixOf at hcol
    rw [List.mem_ofFn] at hcol
    obtain ⟨j, rfl⟩ := hcol
    by_contra hw
    exact hno j ⟨e, tape', by rw [hm'] at he; exact he, hw⟩
  refine le_trans (Nat.cast_le.2 (le_trans (card_le_card hsub) card_biUnion_le)) ?_
  have hone : ∀ j : Fin (width T b),
      ((univ.filter fun p : ((Fin n → Fin (width T b) → Fin (2 ^ b)) × (Fin (width T b) → Fin N' → Fin (2 ^ 32))) ×
          (Fin N' → Fin 4294967293) => bad (f p.1 j) p.2).card : ℝ) = ∑ a, G (f a j) := by
    intro j
    simp only [G]
    rw [← Nat.cast_sum]
    congr 1
    rw [card_filter, Fintype.sum_prod_type]
    refine sum_congr rfl fun c _ => ?_
    rw [card_filter]
  rw [Nat.cast_sum, sum_congr rfl (fun j _ => hone j)]
  refine le_trans (sum_le_sum fun j _ => hcol j) ?_
  rw [sum_const, card_univ, Fintype.card_fin, nsmul_eq_mul]
  unfold randomFailureBound
  rw [← hε, ← mul_assoc]

/-! ## Benchmarked parameters -/

theorem correction_anti {m m' b : Nat} (h : m ≤ m') (h0 : 0 < m) (hb : 1 ≤ b) : correction m' b ≤ correction m b := by
  have hm : (m : ℝ) ≤ m' := Nat.cast_le.2 h
  have hm0 : (0 : ℝ) < m := Nat.cast_pos.2 h0
  have hV := digitMeanSq_pos hb
  have h1 : (0 : ℝ) ≤ 2 ^ b - 1 := by
    have := one_le_pow₀ (one_le_two (α := ℝ)) (n := b)
    linarith
  unfold correction
  gcongr

/-- The bound for a number of rows between `m` and `M`. -/
theorem randomFailureBound_between {m N M T b : Nat} (w k : Nat) (hw : width T b = w) (hb : 1 ≤ b) (h0 : 0 < m) (h1 : m ≤ N) (h2 : N ≤ M)
    (hcor : correction m b ≤ 1) {B : ℝ}
    (hx : (k : ℝ) ≤ 3 * (2 ^ (31 - b)) ^ 2 / (4 * (M * digitMeanSq b)) * (1 - correction m b))
    (hB : 2 * w < B * 2.718 ^ k) (hB0 : 0 < B) (hw0 : 0 < w) :
    correction N b ≤ 1 ∧ randomFailureBound N T b < B := by
  have hc := correction_anti h1 h0 hb
  refine ⟨hc.trans hcor, randomFailureBound_lt w k hw (hx.trans ?_) hB hB0 hw0⟩
  have hN : (N : ℝ) ≤ M := Nat.cast_le.2 h2
  have hN0 : (0 : ℝ) < N := Nat.cast_pos.2 (by omega)
  have hV := digitMeanSq_pos hb
  refine mul_le_mul ?_ (by linarith) (by linarith) (by positivity)
  gcongr

theorem kv_random_bound (log : ℚ → ℚ) (hlog : LogAccurate log) (k e2 M w x T b : Nat) (h2 : 10 ≤ k) (h : k ≤ 20)
    (he : (k : ℝ) * 0.6931471808 / 1.2 + 2.26 < e2 + 1) (hek : 3 * 2 ^ e2 ≤ 2 ^ k)
    (hM : (2 : ℝ) ^ k * (0.875 + 5 / k) + 2 ^ e2 ≤ M) (hw : width T b = w) (hb : 1 ≤ b) (hcor : correction (2 ^ k) b ≤ 1) {B : ℝ}
    (hx : (x : ℝ) ≤ 3 * (2 ^ (31 - b)) ^ 2 / (4 * (M * digitMeanSq b)) * (1 - correction (2 ^ k) b))
    (hB : 2 * w < B * 2.718 ^ x) (h0 : 0 < B) (hw0 : 0 < w) (lay : Layout)
    (hlay : bfLayout (2 ^ k) (bfSegExp log (2 ^ k)) (bfCap0 log (2 ^ k)) = .ok lay) :
    correction lay.arrayLen b ≤ 1 ∧ randomFailureBound lay.arrayLen T b < B := by
  obtain ⟨h1, hpos⟩ := arrayLen_two_pow log hlog k e2 h2 h he hek lay hlay
  have hle : lay.arrayLen ≤ M := by exact_mod_cast le_trans h1 hM
  have hp : (2 : Nat) ^ k ≤ 2 ^ 20 := Nat.pow_le_pow_right (by omega) h
  have hp2 : (2 : Nat) ^ 10 ≤ 2 ^ k := Nat.pow_le_pow_right (by omega) h2
  obtain ⟨lay', e, hlay', _, _, _, _, _, hlt, _⟩ := C76_layout log hlog (2 ^ k) (by omega) (by omega)
  rw [hlay] at hlay'
  cases hlay'
  exact randomFailureBound_between w x hw hb (by positivity) hlt.le hle hcor hx hB h0 hw0

/-- **C115 (benchmarked parameters).** The bound of `C115_kv_failure_rate` at the parameters of the keyword benchmark targets of the
Makefile (number of keys, bits per value, bits per digit), for the filter sizes the code computes. -/
theorem C115_kv_published_parameters (log : ℚ → ℚ) (hlog : LogAccurate log) (k T b : Nat) (B : ℝ)
    (hset : (k, T, b, B) ∈ [(16, 2 ^ 13, 10, 1 / 2 ^ 155), (17, 2 ^ 13, 10, 1 / 2 ^ 72), (18, 2 ^ 13, 10, 1 / 2 ^ 32),
      (19, 2 ^ 13, 9, 1 / 2 ^ 250), (20, 2 ^ 13, 9, 1 / 2 ^ 170), (14, 819200, 10, 1 / 2 ^ 250),
      (17, 245760, 10, 1 / 2 ^ 68), (20, 2 ^ 11, 9, (1 : ℝ) / 2 ^ 170)])
    (lay : Layout) (hlay : bfLayout (2 ^ k) (bfSegExp log (2 ^ k)) (bfCap0 log (2 ^ k)) = .ok lay) :
    correction lay.arrayLen b ≤ 1 ∧ randomFailureBound lay.arrayLen T b < B := by
  simp only [List.mem_cons, List.not_mem_nil, or_false, Prod.mk.injEq] at hset
  rcases hset with ⟨rfl, rfl, rfl, rfl⟩ | ⟨rfl, rfl, rfl, rfl⟩ | ⟨rfl, rfl, rfl, rfl⟩ | ⟨rfl, rfl, rfl, rfl⟩ |
    ⟨rfl, rfl, rfl, rfl⟩ | ⟨rfl, rfl, rfl, rfl⟩ | ⟨rfl, rfl, rfl, rfl⟩ | ⟨rfl, rfl, rfl, rfl⟩
  · exact kv_random_bound log hlog 16 11 79872 820 117 _ _ (by norm_num) (by norm_num) (by norm_num) (by norm_num)
      (by norm_num) (by decide) (by norm_num) (by norm_num [correction, digitMeanSq]) (by norm_num [correction, digitMeanSq])
      (by norm_num) (by norm_num) (by norm_num) lay hlay
  · exact kv_random_bound log hlog 17 12 157335 820 59 _ _ (by norm_num) (by norm_num) (by norm_num) (by norm_num)
      (by norm_num) (by decide) (by norm_num) (by norm_num [correction, digitMeanSq]) (by norm_num [correction, digitMeanSq])
      (by norm_num) (by norm_num) (by norm_num) lay hlay
  · exact kv_random_bound log hlog 18 12 306290 820 30 _ _ (by norm_num) (by norm_num) (by norm_num) (by norm_num)
      (by norm_num) (by decide) (by norm_num) (by norm_num [correction, digitMeanSq]) (by norm_num [correction, digitMeanSq])
      (by norm_num) (by norm_num) (by norm_num) lay hlay
  · exact kv_random_bound log hlog 19 13 604915 911 190 _ _ (by norm_num) (by norm_num) (by norm_num) (by norm_num)
      (by norm_num) (by decide) (by norm_num) (by norm_num [correction, digitMeanSq]) (by norm_num [correction, digitMeanSq])
      (by norm_num) (by norm_num) (by norm_num) lay hlay
  · exact kv_random_bound log hlog 20 13 1187840 911 127 _ _ (by norm_num) (by norm_num) (by norm_num) (by norm_num)
      (by norm_num) (by decide) (by norm_num) (by norm_num [correction, digitMeanSq]) (by norm_num [correction, digitMeanSq])
      (by norm_num) (by norm_num) (by norm_num) lay hlay
  · exact kv_random_bound log hlog 14 10 21212 81920 190 _ _ (by norm_num) (by norm_num) (by norm_num) (by norm_num)
      (by norm_num) (by decide) (by norm_num) (by norm_num [correction, digitMeanSq]) (by norm_num [correction, digitMeanSq])
      (by norm_num) (by norm_num) (by norm_num) lay hlay
  · exact kv_random_bound log hlog 17 12 157335 24576 59 _ _ (by norm_num) (by norm_num) (by norm_num) (by norm_num)
      (by norm_num) (by decide) (by norm_num) (by norm_num [correction, digitMeanSq]) (by norm_num [correction, digitMeanSq])
      (by norm_num) (by norm_num) (by norm_num) lay hlay
  · exact kv_random_bound log hlog 20 13 1187840 228 127 _ _ (by norm_num) (by norm_num) (by norm_num) (by norm_num)
      (by norm_num) (by decide) (by norm_num) (by norm_num [correction, digitMeanSq]) (by norm_num [correction, digitMeanSq])
      (by norm_num) (by norm_num) (by norm_num) lay hlay

/-! ## A case -/

/-- The keys of the three pairs `wKvs`. -/
def wKeyFn : Fin 3 → Key := fun i => exKeys.getD i []

/-- C115 (matrix): the hypotheses are met by the three pairs with 9-bit digits. -/
example : ∃ db, KVDatabase.new .debug 3 12 wFp0 exSeed
    (kvsOf (b := 9) wKeyFn ![![300, 7], ![0, 511], ![1, 64]]) 99 16 9 = .ok db ∧
    kvsOf (b := 9) wKeyFn ![![300, 7], ![0, 511], ![1, 64]] = wKvs ∧ db.entries.length = 2 := by
  have e : kvsOf (b := 9) wKeyFn ![![300, 7], ![0, 511], ![1, 64]] = wKvs := by decide +kernel
  rw [e]
  obtain ⟨db, h1, h2⟩ := exOk (KVDatabase.new .debug 3 12 wFp0 exSeed wKvs 99 16 9) (fun db => db.entries.length = 2)
    (by decide +kernel)
  exact ⟨db, h1, rfl, h2⟩

/-- C115 (failure rate): the hypotheses are met by the same pairs with 20-bit digits. -/
example : ∃ shard, KVShard.new .debug wPrg [7#8] 3 12 wFp0 exSeed
    (kvsOf (b := 20) wKeyFn (![![300, 7], ![0, 511], ![1, 64]] : Fin 3 → Fin (width 40 20) → Fin (2 ^ 20))) 2 99 40 20 = .ok shard ∧
    correction shard.baseParams.m 20 ≤ 1 ∧ ∀ i k : Fin 3, i < k → mix256 (wKeyFn k) exSeed ≠ mix256 (wKeyFn i) exSeed := by
  have e : kvsOf (b := 20) wKeyFn (![![300, 7], ![0, 511], ![1, 64]] : Fin 3 → Fin (width 40 20) → Fin (2 ^ 20)) = wKvs := by
    decide +kernel
  rw [e]
  obtain ⟨shard, h1, h2⟩ := exOk (KVShard.new .debug wPrg [7#8] 3 12 wFp0 exSeed wKvs 2 99 40 20)
    (fun shard => 1 ≤ shard.baseParams.m) (by decide +kernel)
  refine ⟨shard, h1, (correction_anti h2 one_pos (by norm_num)).trans ?_, by decide +kernel⟩
  norm_num [correction, digitMeanSq]

end Chalamet
