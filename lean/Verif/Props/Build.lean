import Verif.Props.Peeling
import Verif.Props.Client
import Verif.Props.KvStrings
import Verif.Lemmas.Server

/-!
# Building shards: C61 (index), C62 (key-value), C63 (key-value row iterator)
-/

namespace Chalamet
open Spec

theorem mapRes_range_first {β : Type} {f : Nat → Res β} {n k : Nat} (hk : k < n)
    (hok : ∀ i < k, ∃ y, f i = .ok y) :
    mapRes f (List.range n) = (f k >>= fun _ => mapRes f (List.range n)) := by
  have hsplit : List.range n = List.range k ++ k :: (List.range (n - k - 1)).map (k + 1 + ·) := by
    rw [show n = (k + 1) + (n - k - 1) by omega, List.range_add, List.range_succ, List.append_assoc]
    congr 1
    rw [show k + 1 + (n - k - 1) - k - 1 = n - k - 1 by omega]
    rfl
  obtain ⟨bs, hbs⟩ : ∃ bs, mapRes f (List.range k) = .ok bs := by
    clear hsplit hk
    induction k with
    | zero => exact ⟨[], rfl⟩
    | succ k ih =>
      obtain ⟨bs, h⟩ := ih (fun i hi => hok i (by omega))
      obtain ⟨y, hy⟩ := hok k (by omega)
      exact ⟨bs ++ [y], by rw [List.range_succ, mapRes_append, h, Res.bind_ok, mapRes_cons, hy]; rfl⟩
  cases hf : f k with
  | ok y => rfl
  | err e => rw [hsplit, mapRes_append, hbs, Res.bind_ok, mapRes_cons, hf]; rfl
  | panic => rw [hsplit, mapRes_append, hbs, Res.bind_ok, mapRes_cons, hf]; rfl
  | diverge => rw [hsplit, mapRes_append, hbs, Res.bind_ok, mapRes_cons, hf]; rfl

/-! ## C61: outcome of building an index shard -/

/-- The string decodes to enough bits for `w` digits of `b` bits (the last one may be partial). -/
def GoodElement (b w : Nat) (s : List Char) : Prop :=
  ∃ e, b64Decode s = .ok e ∧ (w - 1) * b ≤ 8 * e.length

/-- **C61.** Outcome of `Shard::from_base64_strings` for `1 ≤ b ≤ 32`, whatever the seed, dimension and
build profile:
* `m = 0` panics;
* if there are at least `m ≥ 1` strings and the first `m` are good, a shard is returned, and it does not
  depend on the strings after the first `m`;
* otherwise the first position `i < m` without a good string decides: past the end of the list and too
  short elements panic, malformed base64 is an error. -/
theorem C61_index_build (prof : Profile) (prg : Prg) (seed : List U8) (strs : List (List Char))
    (n m T b : Nat) (hb1 : 1 ≤ b) (hb : b ≤ 32) :
    (m = 0 → Shard.fromBase64Strings prof prg seed strs n m T b = .panic) ∧
    (0 < m → m ≤ strs.length → (∀ s ∈ strs.take m, GoodElement b (width T b) s) →
      ∃ shard, Shard.fromBase64Strings prof prg seed strs n m T b = .ok shard ∧
        ∀ extra, Shard.fromBase64Strings prof prg seed (strs.take m ++ extra) n m T b = .ok shard) ∧
    (∀ i < m, (∀ j < i, ∃ s, strs[j]? = some s ∧ GoodElement b (width T b) s) →
      (strs.length ≤ i → Shard.fromBase64Strings prof prg seed strs n m T b = .panic) ∧
      (∀ s, strs[i]? = some s →
        (b64Decode s = .err .base64 →
          Shard.fromBase64Strings prof prg seed strs n m T b = .err .base64) ∧
        (∀ e, b64Decode s = .ok e → 8 * e.length < (width T b - 1) * b →
          Shard.fromBase64Strings prof prg seed strs n m T b = .panic))) := by
  refine ⟨?_, ?_, ?_⟩
  · rintro rfl
    unfold Shard.fromBase64Strings IndexDatabase.new constructRows
    rw [getRowWidth_ok (by omega)]
    rfl
  · intro hm0 hm hgood
    have key : ∀ l : List (List Char), l.length = m → (∀ s ∈ l, GoodElement b (width T b) s) →
        ∀ extra, Shard.fromBase64Strings prof prg seed (l ++ extra) n m T b =
          .ok (shardOf prg seed (l.map decOf) n m T b) := by
      intro l hl hg extra
      have hdec : l.map b64Decode = (l.map decOf).map Res.ok := by
        rw [List.map_map]
        apply List.map_congr_left
        intro s hs
        obtain ⟨e, he, _⟩ := hg s hs
        simp [decOf, he]
      have h := shard_ok (prof := prof) (prg := prg) (seed := seed) (n := n) (T := T) hdec hb1 hb hm0
        (by simp [hl]) (by
          intro e he
          obtain ⟨s, hs, rfl⟩ := List.mem_map.1 (List.mem_of_mem_take he)
          obtain ⟨e', he', h'⟩ := hg s hs
          simpa [decOf, he'] using h')
      rw [← h]
      unfold Shard.fromBase64Strings IndexDatabase.new
      rw [← constructRows_take prof (l ++ extra), List.take_left' hl]
    have hl : (strs.take m).length = m := by simp [hm]
    refine ⟨_, ?_, key _ hl hgood⟩
    have := key _ hl hgood (strs.drop m)
    rwa [List.take_append_drop] at this
  · intro i hi hprev
    have hstep : Shard.fromBase64Strings prof prg seed strs n m T b =
        ((rd strs i >>= fun e => constructRow prof e b (width T b)) >>= fun _ =>
          Shard.fromBase64Strings prof prg seed strs n m T b) := by
      have h := mapRes_range_first (f := fun i => rd strs i >>= fun e =>
        constructRow prof e b (width T b)) hi (by
          intro j hj
          obtain ⟨s, hs, e, he, hlen⟩ := hprev j hj
          exact ⟨_, by rw [rd_of_some hs, Res.bind_ok, constructRow_ok hb he hlen]⟩)
      have hrows : constructRows prof strs m T b =
          mapRes (fun i => rd strs i >>= fun e => constructRow prof e b (width T b)) (List.range m) := by
        unfold constructRows
        rw [getRowWidth_ok (by omega)]
        rfl
      unfold Shard.fromBase64Strings IndexDatabase.new
      rw [hrows]
      cases hf : (rd strs i >>= fun e => constructRow prof e b (width T b)) with
      | ok y => rfl
      | err e => rw [h, hf]; rfl
      | panic => rw [h, hf]; rfl
      | diverge => rw [h, hf]; rfl
    refine ⟨fun hlen => ?_, fun s hs => ⟨fun hd => ?_, fun e hd hlen => ?_⟩⟩
    · rw [hstep, rd_panic hlen]; rfl
    · rw [hstep, rd_of_some hs, Res.bind_ok]
      unfold constructRow
      rw [hd]; rfl
    · rw [hstep, rd_of_some hs, Res.bind_ok]
      unfold constructRow
      rw [hd, Res.bind_ok, rowOfBits_panic _ _ _ _ hb (by rw [bytesToBitsLe_length]; omega)]
      rfl

/-- **C61 (zero plaintext bits).** `plaintext_bits = 0` always panics. -/
theorem C61_zero_bits (prof : Profile) (prg : Prg) (seed : List U8) (strs : List (List Char))
    (n m T : Nat) : Shard.fromBase64Strings prof prg seed strs n m T 0 = .panic := rfl

/-- The four outcomes of C61 on concrete inputs: surplus strings are ignored, a missing string panics, the
first bad string decides whether it is an error or a panic. -/
example :
    (Shard.fromBase64Strings .debug (fun _ _ => 1#32) [] ["AAE=".toList, "!".toList] 2 1 16 8).isOk ∧
    Shard.fromBase64Strings .debug (fun _ _ => 1#32) [] ["AAE=".toList] 2 2 16 8 = .panic ∧
    Shard.fromBase64Strings .debug (fun _ _ => 1#32) [] ["A".toList, "".toList] 2 2 16 8 =
      .err .base64 ∧
    Shard.fromBase64Strings .debug (fun _ _ => 1#32) [] ["".toList, "A".toList] 2 2 16 8 =
      .panic := by decide +kernel

/-! ## C62: outcome of building a key-value shard -/

/-- If every column filter can be built, so can the shard. -/
theorem kvShard_of_columns {prof : Profile} {prg : Prg} {pseed : List U8} {segExp cap0 : Nat}
    {fp0 : Nat → Nat → U32} {seed : List U8} {kvs : List KeyValue} {n m T b : Nat} {lay : Layout}
    (hb1 : 1 ≤ b) (hb : b ≤ 31) (hw : 0 < width T b) (hne : kvs ≠ [])
    (hval : ∀ kv ∈ kvs, kv.value.length = width T b)
    (hlay : bfLayout kvs.length segExp cap0 = .ok lay)
    (hok : ∀ j < width T b, ∃ f, columnFilter prof segExp cap0 fp0 seed kvs b j = .ok f ∧
      f.ptxtMod = BitVec.ofNat 64 (2 ^ b)) :
    ∃ shard, KVShard.new prof prg pseed segExp cap0 fp0 seed kvs n m T b = .ok shard := by
  have h2b : 2 ^ b < 2 ^ 32 := Nat.pow_lt_pow_right (by omega) (by omega)
  have hpn : (BitVec.ofNat 64 (2 ^ b) : U64).toNat = 2 ^ b := by
    rw [BitVec.toNat_ofNat]
    exact Nat.mod_eq_of_lt (by omega)
  obtain ⟨kv0, hrd, h0⟩ : ∃ kv0, rd kvs 0 = .ok kv0 ∧ kv0.value.length = width T b := by
    obtain ⟨kv0, rest, rfl⟩ := List.exists_cons_of_ne_nil hne
    exact ⟨kv0, rfl, hval kv0 (by simp)⟩
  have hInh : Nonempty BinaryFuseP32 := let ⟨f, _⟩ := hok 0 hw; ⟨f⟩
  choose! g hg hgp using hok
  have hfil : mapRes (columnFilter prof segExp cap0 fp0 seed kvs b) (List.range (width T b)) =
      .ok ((List.range (width T b)).map g) :=
    mapRes_ok_of_forall fun j hj => hg j (List.mem_range.1 hj)
  have hpne : ((BitVec.ofNat 64 (2 ^ b) : U64).setWidth 32 : U32) ≠ 0#32 :=
    setWidth_ne_zero (by rw [hpn]; exact Nat.two_pow_pos b) (by rw [hpn]; exact h2b)
  have hmod : ∀ f ∈ (List.range (width T b)).map g, f.getFingerprintsMod =
      .ok (f.fingerprints.map fun x => x % (f.ptxtMod.setWidth 32 : U32)) := by
    intro f hf
    obtain ⟨j, hj, rfl⟩ := List.mem_map.1 hf
    unfold BinaryFuseP32.getFingerprintsMod
    apply mapRes_ok_of_forall
    intro x _
    rw [hgp j (List.mem_range.1 hj)]
    simp only [hpne, if_false]
  have hcols := mapRes_ok_of_forall hmod
  have hnew : ∃ db, KVDatabase.new prof segExp cap0 fp0 seed kvs m T b = .ok db := by
    unfold KVDatabase.new storageFiltersFromKvs
    rw [hrd, Res.bind_ok, h0, hfil, Res.bind_ok, rd_ok (by simpa using hw), Res.bind_ok, Res.bind_ok]
    simp only
    rw [hcols]
    exact ⟨_, rfl⟩
  obtain ⟨db, hdbk⟩ := hnew
  obtain ⟨lay', p, w, _, hwv, hw0, hlay'', _, hfp, hdm, hdT, hdb', hel, hcs⟩ := kvNew_ok hdbk
  rw [hlay] at hlay''
  cases hlay''
  obtain ⟨sw, _, hWF⟩ := bfLayout_wf hlay
  have hNpos : 0 < lay.arrayLen := by
    have := (hashOfHash_lt hWF 0#64).1
    omega
  have hcl : ∀ c ∈ db.entries, c.length = lay.arrayLen := by
    intro c hc
    obtain ⟨j, hj, rfl⟩ := List.getElem_of_mem hc
    obtain ⟨_, _, _, _, _, _, _, _, _, h⟩ := hcs j hj
    exact h
  have hww : w = width T b := by
    rw [hwv]
    exact hval _ (List.getElem_mem _)
  unfold KVShard.new
  rw [hdbk, Res.bind_ok, kvParams_ok hcl hNpos (by omega) (by omega) (by rw [hdT, hdb', hel, hww])]
  exact ⟨_, rfl⟩

/-- **C62.** Take key/value pairs whose values have one word per column (`0 < T`), a 32-byte filter seed,
`b ≤ 31` (in debug builds `8 ≤ b`), sizes that do not overflow `u32`, pairwise different key hashes and no
slot with 64 or more keys. Then `KVShard::new` returns a shard if the keys can be peeled, and panics if
they cannot. The recorded `m` plays no part. -/
theorem C62_kv_build (prof : Profile) (prg : Prg) (pseed : List U8) (segExp cap0 : Nat)
    (fp0 : Nat → Nat → U32) (seed : List U8) (kvs : List KeyValue) (n m T b : Nat) (lay : Layout)
    (hT : 0 < T) (hb1 : 1 ≤ b) (hb : b ≤ 31) (hdebug : prof = .debug → 8 ≤ b) (hne : kvs ≠ [])
    (hval : ∀ kv ∈ kvs, kv.value.length = width T b)
    (hlay : bfLayout kvs.length segExp cap0 = .ok lay) (hseed : seed.length = 32)
    (hload : ∀ s, slotLoad seed lay.geom (kvs.map (·.key)) s < 64)
    (hdist : (kvs.map fun kv => mix256 kv.key seed).Nodup) :
    (CanPeel (touchesP seed lay.geom) (kvs.map (·.key)) →
      ∃ shard, KVShard.new prof prg pseed segExp cap0 fp0 seed kvs n m T b = .ok shard) ∧
    (¬ CanPeel (touchesP seed lay.geom) (kvs.map (·.key)) →
      KVShard.new prof prg pseed segExp cap0 fp0 seed kvs n m T b = .panic) := by
  have hw : 0 < width T b := Nat.div_pos (by omega) (by omega)
  have hlay' : bfLayout (kvs.map (·.key)).length segExp cap0 = .ok lay := by simpa using hlay
  have hdist' : ((kvs.map (·.key)).map fun k => mix256 k seed).Nodup := by
    rw [List.map_map]; exact hdist
  obtain ⟨kv0, rest, rfl⟩ := List.exists_cons_of_ne_nil hne
  have h0 : kv0.value.length = width T b := hval kv0 (by simp)
  generalize hkvs : kv0 :: rest = kvs at *
  have hrd : rd kvs 0 = .ok kv0 := by subst hkvs; rfl
  have h2b : 2 ^ b < 2 ^ 32 := Nat.pow_lt_pow_right (by omega) (by omega)
  have hp : pow2U64 prof b = .ok (BitVec.ofNat 64 (2 ^ b)) := by
    unfold pow2U64
    have e : b % 2 ^ 32 = b := Nat.mod_eq_of_lt (by omega)
    simp only [e]
    rw [if_pos (by omega)]
  have hpn : (BitVec.ofNat 64 (2 ^ b) : U64).toNat = 2 ^ b := by
    rw [BitVec.toNat_ofNat]
    exact Nat.mod_eq_of_lt (by omega)
  have hdata : ∀ j < width T b, ∃ data : List U32, mapRes (fun kv => rd kv.value j) kvs = .ok data ∧
      data.length = kvs.length := by
    intro j hj
    have h := mapRes_ok_of_forall (f := fun kv : KeyValue => rd kv.value j)
      (g := fun kv => kv.value.getD j 0#32) (l := kvs) (by
        intro kv hkv
        have hl := hval kv hkv
        rw [rd_ok (by omega), getD_lt (by omega)])
    exact ⟨_, h, by simp⟩
  have hdb : prof = .debug → 256 ≤ (BitVec.ofNat 64 (2 ^ b) : U64).toNat := by
    intro h
    rw [hpn]
    calc 256 = 2 ^ 8 := rfl
      _ ≤ 2 ^ b := Nat.pow_le_pow_right (by omega) (hdebug h)
  have hcol : ∀ j data, data.length = kvs.length →
      mapRes (fun kv => rd kv.value j) kvs = .ok data →
      columnFilter prof segExp cap0 fp0 seed kvs b j =
        (BinaryFuseP32.fromSlice prof segExp cap0 (fp0 j) seed (kvs.map (·.key)) data
          (BitVec.ofNat 64 j) (BitVec.ofNat 64 (2 ^ b))).unwrap := by
    intro j data _ h
    unfold columnFilter
    rw [h, Res.bind_ok, hp, Res.bind_ok]
  constructor
  · intro hpeel
    have hok : ∀ j < width T b, ∃ f, columnFilter prof segExp cap0 fp0 seed kvs b j = .ok f ∧
        f.ptxtMod = BitVec.ofNat 64 (2 ^ b) := by
      intro j hj
      obtain ⟨data, h1, h2⟩ := hdata j hj
      obtain ⟨f, hf⟩ := (C57_kv_filter prof segExp cap0 (fp0 j) seed (kvs.map (·.key)) data
        (BitVec.ofNat 64 j) (BitVec.ofNat 64 (2 ^ b)) lay hlay' hseed (by simpa using h2)
        (by rw [hpn]; exact Nat.two_pow_pos b) (by rw [hpn]; exact h2b) hdb hload hdist').2 hpeel
      obtain ⟨_, lay', s', _, _, _, _, _, hpm⟩ := fromSlice_wf hf
      exact ⟨f, by rw [hcol j data h2 h1, hf]; rfl, hpm⟩
    exact kvShard_of_columns (by omega) hb hw (by subst hkvs; simp) hval hlay hok
  · intro hpeel
    obtain ⟨data, h1, h2⟩ := hdata 0 hw
    have hno : columnFilter prof segExp cap0 fp0 seed kvs b 0 = .panic := by
      rw [hcol 0 data h2 h1]
      have h57 := C57_kv_filter prof segExp cap0 (fp0 0) seed (kvs.map (·.key)) data
        (BitVec.ofNat 64 0) (BitVec.ofNat 64 (2 ^ b)) lay hlay' hseed (by simpa using h2)
        (by rw [hpn]; exact Nat.two_pow_pos b) (by rw [hpn]; exact h2b) hdb hload hdist'
      rcases C29_total prof segExp cap0 (fp0 0) seed (kvs.map (·.key)) data
        (BitVec.ofNat 64 0) (BitVec.ofNat 64 (2 ^ b)) lay hlay' hseed (by simpa using h2)
        (by rw [hpn]; exact Nat.two_pow_pos b) (by rw [hpn]; exact h2b)
        (fun h => ⟨hdist'.of_map, hdb h⟩) hload with ⟨f, hf, _⟩ | hf
      · exact absurd (h57.1 ⟨f, hf⟩) hpeel
      · rw [hf]; rfl
    unfold KVShard.new KVDatabase.new storageFiltersFromKvs
    rw [hrd, Res.bind_ok, h0]
    obtain ⟨w, hww⟩ : ∃ w, width T b = w + 1 := ⟨width T b - 1, by omega⟩
    rw [hww, List.range_succ_eq_map, mapRes_cons, hno]
    rfl

/-- The outcome is not an error value. -/
def NoErr {α : Type} (x : Res α) : Prop := ∀ e, x ≠ .err e

theorem NoErr.bind {α β : Type} {x : Res α} {f : α → Res β} (hx : NoErr x) (hf : ∀ a, NoErr (f a)) :
    NoErr (x >>= f) := by
  cases x with
  | ok a => exact hf a
  | err e => exact absurd rfl (hx e)
  | panic => intro e h; cases h
  | diverge => intro e h; cases h

theorem NoErr.ok {α : Type} (a : α) : NoErr (Res.ok a) := fun e h => by cases h
theorem NoErr.panic {α : Type} : NoErr (Res.panic : Res α) := fun e h => by cases h

theorem NoErr.unwrap {α : Type} (x : Res α) : NoErr x.unwrap := by
  cases x <;> intro e h <;> simp [Res.unwrap] at h

theorem NoErr.rd {α : Type} (l : List α) (i : Nat) : NoErr (rd l i) := by
  unfold Chalamet.rd
  split
  · exact NoErr.ok _
  · exact NoErr.panic

theorem NoErr.mapRes {α β : Type} {f : α → Res β} (hf : ∀ a, NoErr (f a)) (l : List α) :
    NoErr (mapRes f l) := by
  induction l with
  | nil => exact NoErr.ok _
  | cons a as ih =>
    rw [mapRes_cons]
    exact (hf a).bind fun _ => ih.bind fun _ => NoErr.ok _

theorem NoErr.foldRes {α σ : Type} {f : σ → α → Res σ} (hf : ∀ s a, NoErr (f s a)) (s : σ)
    (l : List α) : NoErr (foldRes f s l) := by
  induction l generalizing s with
  | nil => exact NoErr.ok _
  | cons a as ih =>
    rw [foldRes_cons]
    exact (hf s a).bind fun s' => ih s'

theorem NoErr.swap (M : List (List U32)) : NoErr (swapMatrixFmt M) := by
  unfold swapMatrixFmt
  refine (NoErr.rd _ _).bind fun r => NoErr.foldRes (fun acc row => ?_) _ _
  refine NoErr.foldRes (fun acc i => ?_) _ _
  unfold swapPush wr
  refine (NoErr.rd _ _).bind fun x => (NoErr.rd _ _).bind fun col => ?_
  split
  · exact NoErr.ok _
  · exact NoErr.panic

theorem NoErr.getRowWidth (T b : Nat) : NoErr (getRowWidth T b) := by
  unfold Chalamet.getRowWidth
  split
  · exact NoErr.panic
  · exact NoErr.ok _

theorem NoErr.height (db : KVDatabase) : NoErr db.getMatrixHeight :=
  (NoErr.rd _ _).bind fun _ => NoErr.ok _

/-- **C62 (no error value).** On every input whatsoever `KVShard::new` returns a shard or panics (or does
not return): it never returns an error, so a caller cannot recover from a failed construction by matching
on the result. -/
theorem C62_kv_never_err (prof : Profile) (prg : Prg) (pseed : List U8) (segExp cap0 : Nat)
    (fp0 : Nat → Nat → U32) (seed : List U8) (kvs : List KeyValue) (n m T b : Nat) (e : Err) :
    KVShard.new prof prg pseed segExp cap0 fp0 seed kvs n m T b ≠ .err e := by
  suffices h : NoErr (KVShard.new prof prg pseed segExp cap0 fp0 seed kvs n m T b) from h e
  unfold KVShard.new
  refine NoErr.bind ?_ fun db => NoErr.bind ?_ fun _ => NoErr.ok _
  · unfold KVDatabase.new
    refine (NoErr.rd _ _).bind fun kv0 => NoErr.bind ?_ fun fg => NoErr.bind ?_ fun _ => NoErr.ok _
    · unfold storageFiltersFromKvs
      refine NoErr.bind (NoErr.mapRes (fun i => ?_) _) fun _ => (NoErr.rd _ _).bind fun _ => NoErr.ok _
      unfold columnFilter
      refine NoErr.bind (NoErr.mapRes (fun kv => NoErr.rd _ _) _) fun col => NoErr.bind ?_ fun p =>
        NoErr.unwrap _
      unfold pow2U64
      dsimp only
      split
      · exact NoErr.ok _
      · split
        · exact NoErr.panic
        · exact NoErr.ok _
    · refine NoErr.mapRes (fun f => ?_) _
      unfold BinaryFuseP32.getFingerprintsMod
      refine NoErr.mapRes (fun x => ?_) _
      dsimp only
      split
      · exact NoErr.panic
      · exact NoErr.ok _
  · unfold KVParams.new
    refine NoErr.bind ?_ fun _ => (NoErr.height db).bind fun _ => NoErr.ok _
    unfold generateParamsRhs
    refine (NoErr.height db).bind fun h => (NoErr.swap _).bind fun _ => (NoErr.getRowWidth _ _).bind
      fun _ => NoErr.mapRes (fun i => NoErr.mapRes (fun r => ?_) _) _
    exact (NoErr.rd _ _).bind fun _ => NoErr.unwrap _

theorem mapRes_rd_no_diverge (kvs : List KeyValue) (i : Nat) :
    mapRes (fun kv : KeyValue => rd kv.value i) kvs ≠ .diverge := by
  induction kvs with
  | nil => intro h; cases h
  | cons a as ih =>
    rw [mapRes_cons]
    have h1 : rd a.value i ≠ .diverge := by
      unfold rd; split <;> simp
    cases ha : rd a.value i with
    | diverge => exact absurd ha h1
    | err e => intro h; cases h
    | panic => intro h; cases h
    | ok x =>
      cases hm : mapRes (fun kv : KeyValue => rd kv.value i) as with
      | diverge => exact absurd hm ih
      | ok _ => intro h; cases h
      | err _ => intro h; cases h
      | panic => intro h; cases h

/-- **C62 (debug builds).** In debug builds `KVShard::new` panics on every input with `plaintext_bits < 8`,
and on every input with a repeated key. -/
theorem C62_kv_debug (prg : Prg) (pseed : List U8) (segExp cap0 : Nat)
    (fp0 : Nat → Nat → U32) (seed : List U8) (kvs : List KeyValue) (n m T b : Nat)
    (h : b < 8 ∨ ¬ (kvs.map (·.key)).Nodup) :
    KVShard.new .debug prg pseed segExp cap0 fp0 seed kvs n m T b = .panic := by
  have hcol : ∀ i, columnFilter .debug segExp cap0 fp0 seed kvs b i = .panic := by
    intro i
    unfold columnFilter
    cases hd : mapRes (fun kv : KeyValue => rd kv.value i) kvs with
    | panic => rfl
    | err e => exact absurd hd (NoErr.mapRes (fun kv => NoErr.rd _ _) _ e)
    | diverge => exact absurd hd (mapRes_rd_no_diverge _ _)
    | ok data =>
      have hl := mapRes_length hd
      rw [Res.bind_ok]
      unfold pow2U64
      dsimp only
      by_cases h64 : b % 2 ^ 32 < 64
      · rw [if_pos h64, Res.bind_ok]
        unfold BinaryFuseP32.fromSlice
        rw [if_neg (by simp [hl]), bfusePFromImpl_eq, if_pos]
        · rfl
        · refine ⟨rfl, ?_⟩
          rcases h with h | h
          · right
            rw [BitVec.toNat_ofNat, Nat.mod_eq_of_lt (show b < 2 ^ 32 by omega)]
            have h8 : 2 ^ b < 2 ^ 8 := Nat.pow_lt_pow_right (by omega) h
            generalize 2 ^ b = x at h8 ⊢
            omega
          · exact Or.inl h
      · rw [if_neg h64]
        rfl
  unfold KVShard.new KVDatabase.new storageFiltersFromKvs
  cases kvs with
  | nil => rfl
  | cons kv0 rest =>
    rw [show rd (kv0 :: rest) 0 = .ok kv0 from rfl, Res.bind_ok]
    cases hw : kv0.value.length with
    | zero => rfl
    | succ w =>
      rw [List.range_succ_eq_map, mapRes_cons, hcol]
      rfl

/-- **C62 (the recorded number of records).** The argument `m` of `KVShard::new` has no influence on the
outcome: with any other value construction succeeds, panics or hangs alike, the parameters clients download
are the same, every query is answered the same, and only the number recorded in the server's database
differs. -/
theorem C62_recorded_m (prof : Profile) (prg : Prg) (pseed : List U8) (segExp cap0 : Nat)
    (fp0 : Nat → Nat → U32) (seed : List U8) (kvs : List KeyValue) (n m m' T b : Nat) :
    (∀ shard, KVShard.new prof prg pseed segExp cap0 fp0 seed kvs n m T b = .ok shard →
      ∃ shard', KVShard.new prof prg pseed segExp cap0 fp0 seed kvs n m' T b = .ok shard' ∧
        shard'.baseParams = shard.baseParams ∧ shard'.db = { shard.db with m := m' } ∧ shard.db.m = m ∧
        (∀ q, shard'.respond q = shard.respond q) ∧ shard'.rowIter prof = shard.rowIter prof) ∧
    (KVShard.new prof prg pseed segExp cap0 fp0 seed kvs n m T b = .panic →
      KVShard.new prof prg pseed segExp cap0 fp0 seed kvs n m' T b = .panic) ∧
    (KVShard.new prof prg pseed segExp cap0 fp0 seed kvs n m T b = .diverge →
      KVShard.new prof prg pseed segExp cap0 fp0 seed kvs n m' T b = .diverge) := by
  unfold KVShard.new KVDatabase.new
  cases h0 : rd kvs 0 with
  | panic => exact ⟨fun _ h => by simp at h, fun _ => rfl, fun h => by simp at h⟩
  | diverge => exact ⟨fun _ h => by simp at h, fun h => by simp at h, fun _ => rfl⟩
  | err e => exact ⟨fun _ h => by simp at h, fun h => by simp at h, fun h => by simp at h⟩
  | ok kv0 =>
    simp only [Res.bind_ok]
    cases h1 : storageFiltersFromKvs prof segExp cap0 fp0 seed kvs kv0.value.length b with
    | panic => exact ⟨fun _ h => by simp at h, fun _ => rfl, fun h => by simp at h⟩
    | diverge => exact ⟨fun _ h => by simp at h, fun h => by simp at h, fun _ => rfl⟩
    | err e => exact ⟨fun _ h => by simp at h, fun h => by simp at h, fun h => by simp at h⟩
    | ok fg =>
      obtain ⟨fs, g⟩ := fg
      simp only [Res.bind_ok]
      cases h2 : mapRes BinaryFuseP32.getFingerprintsMod fs with
      | panic => exact ⟨fun _ h => by simp at h, fun _ => rfl, fun h => by simp at h⟩
      | diverge => exact ⟨fun _ h => by simp at h, fun h => by simp at h, fun _ => rfl⟩
      | err e => exact ⟨fun _ h => by simp at h, fun h => by simp at h, fun h => by simp at h⟩
      | ok cols =>
        simp only [Res.bind_ok]
        have hp : ∀ k, KVParams.new prg pseed (KVDatabase.mk cols k T b ⟨seed, g⟩) n =
            KVParams.new prg pseed (KVDatabase.mk cols m T b ⟨seed, g⟩) n := fun _ => rfl
        rw [hp m']
        cases h3 : KVParams.new prg pseed (KVDatabase.mk cols m T b ⟨seed, g⟩) n with
        | panic => exact ⟨fun _ h => by simp at h, fun _ => rfl, fun h => by simp at h⟩
        | diverge => exact ⟨fun _ h => by simp at h, fun h => by simp at h, fun _ => rfl⟩
        | err e => exact ⟨fun _ h => by simp at h, fun h => by simp at h, fun h => by simp at h⟩
        | ok bp =>
          refine ⟨fun shard h => ?_, fun h => by simp at h, fun h => by simp at h⟩
          simp only [Res.bind_ok, Res.ok.injEq] at h
          subst h
          exact ⟨_, rfl, rfl, rfl, rfl, fun q => rfl, rfl⟩

/-- Non-vacuity of C62: three keys with a two-column value are built (their keys can be peeled), the two
keys of `exCore` are not. -/
example : (KVShard.new .debug (fun _ _ => 1#32) [] 3 16 (fun _ _ => 5#32) exSeed
      (exKeys.map fun k => { key := k, value := [300#32, 7#32] }) 1 99 16 9).isOk = true := by
  decide +kernel

example : KVShard.new .debug (fun _ _ => 1#32) [] 2 12 (fun _ _ => 5#32) exSeed
      (exCore.map fun k => { key := k, value := [300#32, 7#32] }) 1 2 16 9 = .panic := by
  obtain ⟨lay, hlay, _, hd, hcore, _⟩ := exCore_stuck
  refine (C62_kv_build .debug _ _ 2 12 _ exSeed (exCore.map fun k => { key := k, value := [300#32, 7#32] })
    1 2 16 9 lay (by decide) (by decide) (by decide) (by decide) (by simp [exCore]) ?_ hlay (by decide)
    ?_ hd).2 ?_
  · intro kv hkv
    obtain ⟨k, _, rfl⟩ := List.mem_map.1 hkv
    rfl
  · exact slotLoad_lt_of_length _ _ _ (by decide)
  · intro h
    exact (canPeel_iff_no_core _ exCore (by decide)).1 h hcore

/-! ## C63: the row iterator of a key-value shard -/

theorem horner_lt {b : Nat} (l : List Nat) (h : ∀ x ∈ l, x < 2 ^ b) : horner b l < 2 ^ (b * l.length) := by
  induction l with
  | nil => simp [horner]
  | cons d ds ih =>
    have h1 := ih fun x hx => h x (by simp [hx])
    have h2 := h d (by simp)
    rw [horner, List.length_cons, Nat.mul_add, Nat.pow_add, Nat.mul_one, Nat.mul_comm (2 ^ (b * ds.length))]
    calc d + 2 ^ b * horner b ds < 2 ^ b + 2 ^ b * horner b ds := by omega
      _ = 2 ^ b * (horner b ds + 1) := by ring
      _ ≤ _ := Nat.mul_le_mul_left _ h1

theorem digit_horner {b : Nat} (l : List Nat) (h : ∀ x ∈ l, x < 2 ^ b) (r j : Nat) (hj : j < l.length) :
    digit b (horner b l + 2 ^ (b * l.length) * r) j = l[j] := by
  induction l generalizing j r with
  | nil => simp at hj
  | cons d ds ih =>
    have h2 := h d (by simp)
    have e : horner b (d :: ds) + 2 ^ (b * (d :: ds).length) * r =
        d + 2 ^ b * (horner b ds + 2 ^ (b * ds.length) * r) := by
      rw [horner, List.length_cons, Nat.mul_add, Nat.pow_add]
      ring
    rw [e]
    unfold digit at *
    cases j with
    | zero => simp [Nat.add_mul_mod_self_left, Nat.mod_eq_of_lt h2]
    | succ j =>
      rw [List.getElem_cons_succ, show b * (j + 1) = b + b * j by ring, Nat.pow_add,
        ← Nat.div_div_eq_div_mul, Nat.add_mul_div_left _ _ (Nat.two_pow_pos b),
        Nat.div_eq_of_lt h2, Nat.zero_add]
      exact ih (fun x hx => h x (by simp [hx])) r j (by simpa using hj)

/-- **C63.** The row iterator of a key-value shard that was built with one word per column (`0 < T`,
`b ≤ 31`) yields one base64 string per filter slot: as many as the published record count, in general more
than there are keys. The string of slot `i` encodes the words of the published matrix at that slot: its base
`2^b` digits are the entries of the columns (of the last column only `T mod b` bits, as for C14). -/
theorem C63_kv_row_iterator (prof : Profile) (prg : Prg) (pseed : List U8) (segExp cap0 : Nat)
    (fp0 : Nat → Nat → U32) (seed : List U8) (kvs : List KeyValue) (n m T b : Nat) (shard : KVShard)
    (hT : 0 < T) (hb1 : 1 ≤ b) (hb : b ≤ 31)
    (hval : ∀ kv ∈ kvs, kv.value.length = width T b)
    (hsh : KVShard.new prof prg pseed segExp cap0 fp0 seed kvs n m T b = .ok shard) :
    shard.db.entries.length = width T b ∧ (∀ col ∈ shard.db.entries, col.length = shard.baseParams.m) ∧
    ∃ strs, shard.rowIter prof = .ok strs ∧ strs.length = shard.baseParams.m ∧
      ∀ i (hi : i < strs.length), ∃ bytes, strs[i] = b64Encode bytes ∧
        bytes.length = (b * (width T b - 1) + T % b + 7) / 8 ∧
        (∀ j < width T b - 1, digit b (leNat bytes) j =
          ((shard.db.entries.getD j []).getD i 0#32).toNat) ∧
        leNat bytes / 2 ^ (b * (width T b - 1)) =
          ((shard.db.entries.getD (width T b - 1) []).getD i 0#32).toNat % 2 ^ (T % b) := by
  have hw : 0 < width T b := Nat.div_pos (by omega) (by omega)
  unfold KVShard.new at hsh
  obtain ⟨db, hdb, hsh⟩ := Res.bind_eq_ok.1 hsh
  obtain ⟨bp, hbp, hsh⟩ := Res.bind_eq_ok.1 hsh
  cases hsh
  obtain ⟨height, hh0, _, hlen, _, hcols⟩ := C37_shared_geometry prof segExp cap0 fp0 seed kvs m T b hb db hdb
  obtain ⟨lay, p, w, h0, hwv, hw0, hlay, hp, hfp, hdm, hdT, hdb', hel, _⟩ := kvNew_ok hdb
  have hww : db.entries.length = width T b := by
    rw [hel, hwv]; exact hval _ (List.getElem_mem h0)
  have hheight : db.getMatrixHeight = .ok height := by
    unfold KVDatabase.getMatrixHeight
    rw [rd_ok (by omega), Res.bind_ok, (hcols _ (List.getElem_mem _)).1]
  have hbm : bp.m = height := by
    unfold KVParams.new at hbp
    obtain ⟨rhs, _, hbp⟩ := Res.bind_eq_ok.1 hbp
    rw [hheight, Res.bind_ok] at hbp
    cases hbp
    rfl
  refine ⟨hww, fun col hc => by rw [(hcols col hc).1, hbm], ?_⟩
  -- the row of slot `i`
  have hrow : ∀ i < height, getMatrixSecondAt db.entries i =
      .ok (db.entries.map fun c => c.getD i 0#32) := by
    intro i hi
    unfold getMatrixSecondAt
    apply mapRes_ok_of_forall
    intro c hc
    have := (hcols c hc).1
    rw [rd_ok (by omega), getD_lt (by omega)]
  have hent : ∀ i < height, ∃ bytes, db.getDbEntry prof i = .ok (b64Encode bytes) ∧
      bytes.length = (b * (width T b - 1) + T % b + 7) / 8 ∧
      (∀ j < width T b - 1, digit b (leNat bytes) j = ((db.entries.getD j []).getD i 0#32).toNat) ∧
      leNat bytes / 2 ^ (b * (width T b - 1)) =
        ((db.entries.getD (width T b - 1) []).getD i 0#32).toNat % 2 ^ (T % b) := by
    intro i hi
    have hne : (db.entries.map fun c => c.getD i 0#32) ≠ [] := by
      intro h; have := congrArg List.length h; simp at this; rw [this] at hww; simp at hww; omega
    have hltall : ∀ x ∈ db.entries.map fun c => c.getD i 0#32, x.toNat < 2 ^ b := by
      intro x hx
      obtain ⟨c, hc, rfl⟩ := List.mem_map.1 hx
      have := (hcols c hc).1
      rw [getD_lt (by omega)]
      exact (hcols c hc).2.1 _ (List.getElem_mem _)
    obtain ⟨bytes, e1, e2, e3⟩ := bytesFromU32Slice_val (prof := prof)
      (v := (db.entries.map fun c => c.getD i 0#32).dropLast)
      (x := (db.entries.map fun c => c.getD i 0#32).getLast hne) (b := b) (T := T) (by omega) (by omega)
    rw [List.dropLast_append_getLast] at e1
    have hdl : (db.entries.map fun c => c.getD i 0#32).dropLast.length = width T b - 1 := by simp [hww]
    rw [hdl] at e2 e3
    have hlt : ∀ x ∈ (db.entries.map fun c => c.getD i 0#32).dropLast.map fun y => y.toNat % 2 ^ b,
        x < 2 ^ b := by
      intro x hx
      obtain ⟨y, _, rfl⟩ := List.mem_map.1 hx
      exact Nat.mod_lt _ (Nat.two_pow_pos b)
    refine ⟨bytes, ?_, e2, ?_, ?_⟩
    · unfold KVDatabase.getDbEntry
      rw [hrow i hi, Res.bind_ok, hdT, hdb']
      unfold base64FromU32Slice
      rw [e1]
      rfl
    · intro j hj
      have hjl : j < ((db.entries.map fun c => c.getD i 0#32).dropLast.map
        fun y => y.toNat % 2 ^ b).length := by simp; omega
      have := digit_horner _ hlt (((db.entries.map fun c : List U32 => c.getD i 0#32).getLast hne).toNat % 2 ^ (T % b))
        j hjl
      rw [List.length_map, hdl] at this
      rw [e3, this, List.getElem_map, List.getElem_dropLast, List.getElem_map,
        getD_lt (l := db.entries) (by omega)]
      apply Nat.mod_eq_of_lt
      apply hltall
      exact List.mem_map.2 ⟨db.entries[j]'(by omega), List.getElem_mem _, rfl⟩
    · have h1 := horner_lt _ hlt
      rw [List.length_map, hdl] at h1
      rw [e3, Nat.add_mul_div_left _ _ (Nat.two_pow_pos _), Nat.div_eq_of_lt h1, Nat.zero_add,
        List.getLast_eq_getElem, List.getElem_map, getD_lt (l := db.entries) (by omega)]
      simp only [List.length_map, hww]
  choose! g hg1 hg2 hg3 hg4 using hent
  refine ⟨(List.range height).map fun i => b64Encode (g i), ?_, by simp [hbm], ?_⟩
  · unfold KVShard.rowIter
    simp only [hheight, Res.bind_ok]
    apply mapRes_ok_of_forall
    intro i hi
    exact hg1 i (List.mem_range.1 hi)
  · intro i hi
    have hi' : i < height := by simpa using hi
    exact ⟨g i, by simp, hg2 i hi', hg3 i hi', hg4 i hi'⟩

/-- Non-vacuity of C63: three stored pairs, and the iterator yields 24 strings, none of which is the stored
value (`300 + 2^9 * 7`, base64 `LA8=`). -/
example : (do
    let s ← KVShard.new .debug (fun _ _ => 1#32) [] 3 16 (fun _ _ => 5#32) exSeed
      (exKeys.map fun k => { key := k, value := [300#32, 7#32] }) 1 99 16 9
    let strs ← s.rowIter .debug
    .ok (strs.length, strs.contains "LA8=".toList)) = .ok (24, false) := by
  decide +kernel

end Chalamet
