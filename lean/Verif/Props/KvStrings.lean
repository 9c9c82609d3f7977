import Verif.Props.Kv

/-!
# Key-value shards built from strings: C50, C51, C52 (keyword)
-/

namespace Chalamet
open Spec

/-! ## C50: keyword derivation -/

theorem foldr_leNat (l : List U8) : l.foldr (fun b acc => b.toNat + 256 * acc) 0 = leNat l := by
  induction l with
  | nil => rfl
  | cons b bs ih => rw [List.foldr_cons, ih]; rfl

theorem u64FromLeBytes_toNat {l : List U8} (h : l.length = 8) : (u64FromLeBytes l).toNat = leNat l := by
  unfold u64FromLeBytes
  rw [foldr_leNat, BitVec.toNat_ofNat]
  apply Nat.mod_eq_of_lt
  have := leNat_lt l
  rw [h] at this
  exact lt_of_lt_of_eq this (by norm_num)

theorem sha256IntoU64Sized_ok {sha : Sha} {input : List U8} (h : (sha input).length = 32) :
    sha256IntoU64Sized sha input =
      .ok ((List.range 4).map fun i => u64FromLeBytes (((sha input).drop (8 * i)).take 8)) := by
  unfold sha256IntoU64Sized
  simp only [h, ne_eq, not_true, if_false]
  apply mapRes_ok_of_forall
  intro i hi
  rw [List.mem_range] at hi
  have : (((sha input).drop (8 * i)).take 8).length = 8 := by simp [h]; omega
  rw [if_pos this]

/-- The four words determine the 32 bytes. -/
theorem words_inj {d d' : List U8} (h : d.length = 32) (h' : d'.length = 32)
    (e : (List.range 4).map (fun i => u64FromLeBytes ((d.drop (8 * i)).take 8)) =
      (List.range 4).map (fun i => u64FromLeBytes ((d'.drop (8 * i)).take 8))) : d = d' := by
  have hw : ∀ i < 4, (d.drop (8 * i)).take 8 = (d'.drop (8 * i)).take 8 := by
    intro i hi
    have e' := congrArg (fun l => l[i]?) e
    simp only [List.getElem?_map, List.getElem?_range hi, Option.map_some, Option.some.injEq] at e'
    have l1 : ((d.drop (8 * i)).take 8).length = 8 := by simp [h]; omega
    have l2 : ((d'.drop (8 * i)).take 8).length = 8 := by simp [h']; omega
    apply leNat_inj (by rw [l1, l2])
    rw [← u64FromLeBytes_toNat l1, ← u64FromLeBytes_toNat l2, e']
  apply List.ext_getElem (by omega)
  intro k h1 h2
  have hk := congrArg (fun l => l[k % 8]?) (hw (k / 8) (by omega))
  have hm := Nat.mod_lt k (by norm_num : 0 < 8)
  simp only [List.getElem?_take, hm, if_true, List.getElem?_drop] at hk
  rw [Nat.div_add_mod k 8, List.getElem?_eq_getElem h1, List.getElem?_eq_getElem h2] at hk
  simpa using hk

/-- **C50.** For every hash function with 32-byte digests: deriving the key of a keyword never fails, the
key has four words, word `i` is the little-endian value of bytes `8i..8i+7` of the digest, and two
keywords have the same key exactly when their digests are equal. -/
theorem C50_keyword_derivation (sha : Sha) (hsha : ∀ x, (sha x).length = 32) (k₁ k₂ : List U8) :
    (∃ key, sha256IntoU64Sized sha k₁ = .ok key ∧ key.length = 4 ∧
      ∀ i (hi : i < key.length), key[i].toNat = leNat (((sha k₁).drop (8 * i)).take 8)) ∧
    (sha256IntoU64Sized sha k₁ = sha256IntoU64Sized sha k₂ ↔ sha k₁ = sha k₂) := by
  refine ⟨⟨_, sha256IntoU64Sized_ok (hsha k₁), by simp, ?_⟩, ?_⟩
  · intro i hi
    rw [List.getElem_map, List.getElem_range]
    have hi' : i < 4 := by simpa using hi
    exact u64FromLeBytes_toNat (by simp [hsha]; omega)
  · rw [sha256IntoU64Sized_ok (hsha k₁), sha256IntoU64Sized_ok (hsha k₂), Res.ok.injEq]
    exact ⟨words_inj (hsha k₁) (hsha k₂), fun h => by rw [h]⟩

/-- Non-vacuity of C50: a function with 32-byte results that separates two keywords. -/
example : ∃ sha : Sha, (∀ x, (sha x).length = 32) ∧ sha [1#8] ≠ sha [2#8] :=
  ⟨fun x => (x ++ List.replicate 32 0#8).take 32, fun x => by simp, by decide⟩

/-! ## C51: refused inputs -/

/-- **C51.** Different numbers of keys and values are refused, whatever the values are (malformed values
are not even looked at, and nothing is built). -/
theorem C51_length_mismatch (prof : Profile) (sha : Sha) (prg : Prg) (pseed : List U8)
    (segExp cap0 : Nat) (fp0 : Nat → Nat → U32) (filterSeed : List U8) (keys : List (List U8))
    (values : List (List Char)) (n m T b : Nat) (h : keys.length ≠ values.length) :
    KVShard.fromBase64Strings prof sha prg pseed segExp cap0 fp0 filterSeed keys values n m T b =
      .err .kvCountMismatch := by
  unfold KVShard.fromBase64Strings KVDatabase.fromBase64Strings
  rw [if_pos h]
  rfl

theorem collectEager_eq_ok {α β : Type} {f : α → Res β} {l : List α} {bs : List β} :
    collectEager f l = .ok bs ↔ mapRes f l = .ok bs := by
  induction l generalizing bs with
  | nil => rfl
  | cons a as ih =>
    rw [mapRes_cons]
    unfold collectEager
    cases f a with
    | ok b =>
      cases hc : collectEager f as with
      | ok cs =>
        rw [ih.1 hc]
        exact Iff.rfl
      | err e =>
        refine ⟨fun h => (by cases h), fun h => ?_⟩
        rw [Res.bind_ok] at h
        obtain ⟨cs, h', _⟩ := Res.bind_eq_ok.1 h
        rw [ih.2 h'] at hc
        cases hc
      | panic =>
        refine ⟨fun h => (by cases h), fun h => ?_⟩
        rw [Res.bind_ok] at h
        obtain ⟨cs, h', _⟩ := Res.bind_eq_ok.1 h
        rw [ih.2 h'] at hc
        cases hc
      | diverge =>
        refine ⟨fun h => (by cases h), fun h => ?_⟩
        rw [Res.bind_ok] at h
        obtain ⟨cs, h', _⟩ := Res.bind_eq_ok.1 h
        rw [ih.2 h'] at hc
        cases hc
    | err e => cases collectEager f as <;> simp
    | panic => simp
    | diverge => simp

theorem collectEager_err {α β : Type} {f : α → Res β} {l : List α}
    (h : ∀ a ∈ l, (∃ b, f a = .ok b) ∨ ∃ e, f a = .err e) (hbad : ∃ a ∈ l, ∃ e, f a = .err e) :
    ∃ e, collectEager f l = .err e := by
  have tot : ∀ l : List α, (∀ a ∈ l, (∃ b, f a = .ok b) ∨ ∃ e, f a = .err e) →
      (∃ bs, collectEager f l = .ok bs) ∨ ∃ e, collectEager f l = .err e := by
    intro l
    induction l with
    | nil => intro _; exact Or.inl ⟨_, rfl⟩
    | cons a as ih =>
      intro h
      rcases h a (by simp) with ⟨b, hb⟩ | ⟨e, he⟩ <;>
        rcases ih (fun x hx => h x (by simp [hx])) with ⟨bs, hbs⟩ | ⟨e', he'⟩
      · exact Or.inl ⟨b :: bs, by simp [collectEager, hb, hbs]⟩
      · exact Or.inr ⟨e', by simp [collectEager, hb, he']⟩
      · exact Or.inr ⟨e, by simp [collectEager, he, hbs]⟩
      · exact Or.inr ⟨e, by simp [collectEager, he, he']⟩
  rcases tot l h with ⟨bs, hbs⟩ | h
  · obtain ⟨a, ha, e, he⟩ := hbad
    obtain ⟨i, hi, rfl⟩ := List.getElem_of_mem ha
    have hm := collectEager_eq_ok.1 hbs
    have := mapRes_getElem hm hi (by rw [mapRes_length hm]; exact hi)
    rw [he] at this
    cases this
  · exact h

theorem kvConstructRow_eq {prof : Profile} {str : List Char} {b T : Nat} (hb : 1 ≤ b) :
    kvConstructRow prof str b T = constructRow prof str b (width T b) := by
  unfold kvConstructRow
  rw [getRowWidth_ok (by omega)]
  rfl

/-- **C51 (malformed values).** If some value is not valid base64, and every value that is valid has
enough bits to start its last digit, the whole construction is the "constructing KVs" error, wherever the bad value is. -/
theorem C51_malformed_value (prof : Profile) (sha : Sha) (hsha : ∀ x, (sha x).length = 32) (prg : Prg)
    (pseed : List U8) (segExp cap0 : Nat) (fp0 : Nat → Nat → U32) (filterSeed : List U8)
    (keys : List (List U8)) (values : List (List Char)) (n m T b : Nat) (hb1 : 1 ≤ b) (hb : b ≤ 32)
    (hlen : keys.length = values.length)
    (hshort : ∀ v ∈ values, ∀ e, b64Decode v = .ok e → (width T b - 1) * b ≤ 8 * e.length)
    (hbad : ∃ v ∈ values, ∀ e, b64Decode v ≠ .ok e) :
    KVShard.fromBase64Strings prof sha prg pseed segExp cap0 fp0 filterSeed keys values n m T b =
      .err .kvConstruct := by
  have hrow : ∀ v ∈ values, (∃ r, kvConstructRow prof v b T = .ok r) ∨
      (∃ e, kvConstructRow prof v b T = .err e ∧ ∀ e, b64Decode v ≠ .ok e) := by
    intro v hv
    rw [kvConstructRow_eq hb1]
    rcases C17_element_length prof v b (width T b) hb with ⟨h1, h2⟩ | ⟨e, h1, _, h2⟩
    · exact Or.inr ⟨_, h2, by rw [h1]; simp⟩
    · obtain ⟨r, hr, _⟩ := h2 (hshort v hv e h1)
      exact Or.inl ⟨r, hr⟩
  have hf : ∀ (k : List U8) (v : List Char), KeyValue.fromBase64Strings prof sha k v T b =
      (kvConstructRow prof v b T >>= fun value => .ok
        { key := (List.range 4).map fun i => u64FromLeBytes (((sha k).drop (8 * i)).take 8)
          value := value }) := by
    intro k v
    unfold KeyValue.fromBase64Strings
    rw [sha256IntoU64Sized_ok (hsha _), Res.bind_ok]
  obtain ⟨e, he⟩ := collectEager_err (f := fun kv : List U8 × List Char =>
      KeyValue.fromBase64Strings prof sha kv.1 kv.2 T b) (l := keys.zip values)
    (by
      rintro ⟨k, v⟩ hkv
      have hv := (List.of_mem_zip hkv).2
      simp only [hf]
      rcases hrow v hv with ⟨r, hr⟩ | ⟨e, he, _⟩
      · left; rw [hr]; exact ⟨_, rfl⟩
      · right; rw [he]; exact ⟨e, rfl⟩)
    (by
      obtain ⟨v, hv, hb⟩ := hbad
      obtain ⟨i, hi, rfl⟩ := List.getElem_of_mem hv
      refine ⟨(keys[i], values[i]), ?_, ?_⟩
      · rw [List.mem_iff_getElem]
        exact ⟨i, by simp; omega, by simp⟩
      · simp only [hf]
        rcases hrow _ hv with ⟨r, hr⟩ | ⟨e, he, _⟩
        · exfalso
          rw [kvConstructRow_eq hb1] at hr
          unfold constructRow at hr
          obtain ⟨x, hx, _⟩ := Res.bind_eq_ok.1 hr
          exact hb x hx
        · rw [he]; exact ⟨e, rfl⟩)
  unfold KVShard.fromBase64Strings KVDatabase.fromBase64Strings
  rw [if_neg (by omega), he]
  rfl

/-- Non-vacuity of C51: a bad value after a good one. -/
example : KVShard.fromBase64Strings .debug (fun _ => List.replicate 32 1#8) (fun _ _ => 0#32) [] 3 16
    (fun _ _ => 0#32) [] [[1#8], [2#8]] ["AAE=".toList, "A!==".toList] 2 2 16 8 =
      .err .kvConstruct := by decide +kernel

/-- A panic of one element wins over everything else. -/
theorem collectEager_panic {α β : Type} {f : α → Res β} {l : List α}
    (h : ∀ a ∈ l, f a ≠ .diverge) (hbad : ∃ a ∈ l, f a = .panic) : collectEager f l = .panic := by
  have tot : ∀ l : List α, (∀ a ∈ l, f a ≠ .diverge) → collectEager f l ≠ .diverge := by
    intro l
    induction l with
    | nil => intro _ e; cases e
    | cons a as ih =>
      intro h
      have h1 := h a List.mem_cons_self
      have h2 := ih fun x hx => h x (List.mem_cons_of_mem _ hx)
      unfold collectEager
      revert h1 h2
      cases f a <;> cases collectEager f as <;> simp
  induction l with
  | nil => obtain ⟨a, ha, _⟩ := hbad; simp at ha
  | cons a as ih =>
    have h1 := h a List.mem_cons_self
    have h2 := tot as fun x hx => h x (List.mem_cons_of_mem _ hx)
    unfold collectEager
    obtain ⟨x, hx, hp⟩ := hbad
    rcases List.mem_cons.1 hx with rfl | hx
    · rw [hp]
    · rw [ih (fun x hx => h x (List.mem_cons_of_mem _ hx)) ⟨x, hx, hp⟩]
      revert h1
      cases f a <;> simp

/-- **C51 (short values).** If some value is valid base64 with too few bits to start its last digit, the
construction panics, even when another value, before or after it, is malformed. -/
theorem C51_short_value (prof : Profile) (sha : Sha) (hsha : ∀ x, (sha x).length = 32) (prg : Prg)
    (pseed : List U8) (segExp cap0 : Nat) (fp0 : Nat → Nat → U32) (filterSeed : List U8)
    (keys : List (List U8)) (values : List (List Char)) (n m T b : Nat) (hb1 : 1 ≤ b) (hb : b ≤ 32)
    (hlen : keys.length = values.length)
    (hbad : ∃ v ∈ values, ∃ e, b64Decode v = .ok e ∧ 8 * e.length < (width T b - 1) * b) :
    KVShard.fromBase64Strings prof sha prg pseed segExp cap0 fp0 filterSeed keys values n m T b = .panic := by
  have hf : ∀ (k : List U8) (v : List Char), KeyValue.fromBase64Strings prof sha k v T b =
      (kvConstructRow prof v b T >>= fun value => .ok
        { key := (List.range 4).map fun i => u64FromLeBytes (((sha k).drop (8 * i)).take 8)
          value := value }) := by
    intro k v
    unfold KeyValue.fromBase64Strings
    rw [sha256IntoU64Sized_ok (hsha _), Res.bind_ok]
  have he := collectEager_panic (f := fun kv : List U8 × List Char =>
      KeyValue.fromBase64Strings prof sha kv.1 kv.2 T b) (l := keys.zip values)
    (by
      rintro ⟨k, v⟩ _
      simp only [hf, kvConstructRow_eq hb1]
      rcases C17_element_length prof v b (width T b) hb with ⟨_, h2⟩ | ⟨e, _, h2, h3⟩
      · rw [h2]; simp [Bind.bind, Res.bind]
      · rcases Nat.lt_or_ge (8 * e.length) ((width T b - 1) * b) with h | h
        · rw [h2 h]; simp [Bind.bind, Res.bind]
        · obtain ⟨r, hr, _⟩ := h3 h
          rw [hr]; simp [Bind.bind, Res.bind])
    (by
      obtain ⟨v, hv, e, h1, h2⟩ := hbad
      obtain ⟨i, hi, rfl⟩ := List.getElem_of_mem hv
      refine ⟨(keys[i], values[i]), ?_, ?_⟩
      · rw [List.mem_iff_getElem]
        exact ⟨i, by simp; omega, by simp⟩
      · simp only [hf, kvConstructRow_eq hb1]
        rcases C17_element_length prof values[i] b (width T b) hb with ⟨h3, _⟩ | ⟨e', h3, h4, _⟩
        · rw [h1] at h3; cases h3
        · rw [h1] at h3
          cases h3
          rw [h4 h2]; rfl)
  unfold KVShard.fromBase64Strings KVDatabase.fromBase64Strings
  rw [if_neg (by omega), he]
  rfl

/-- Non-vacuity of C51: a value of 8 bits where 16 are needed after a malformed one. -/
example : KVShard.fromBase64Strings .debug (fun _ => List.replicate 32 1#8) (fun _ _ => 0#32) [] 3 16
    (fun _ _ => 0#32) [] [[1#8], [2#8]] ["A!==".toList, "".toList] 2 2 16 8 = .panic := by decide +kernel

/-! ## C52 (keyword) -/

/-- Anatomy of a shard built from strings. -/
theorem kvStrings_ok {prof : Profile} {sha : Sha} {prg : Prg} {pseed : List U8} {segExp cap0 : Nat}
    {fp0 : Nat → Nat → U32} {filterSeed : List U8} {keys : List (List U8)} {values : List (List Char)}
    {elems : List (List U8)} {n m T b : Nat} {shard : KVShard} (hb1 : 1 ≤ b) (hb : b ≤ 32)
    (hdec : values.map b64Decode = elems.map Res.ok) (hlen : ∀ e ∈ elems, T ≤ 8 * e.length)
    (h : KVShard.fromBase64Strings prof sha prg pseed segExp cap0 fp0 filterSeed keys values n m T b =
      .ok shard) :
    keys.length = elems.length ∧
    ∃ kvs, KVShard.new prof prg pseed segExp cap0 fp0 filterSeed kvs n m T b = .ok shard ∧
      kvs.length = keys.length ∧
      ∀ i (hk : i < kvs.length) (hi : i < keys.length) (he : i < elems.length),
        sha256IntoU64Sized sha keys[i] = .ok kvs[i].key ∧
        kvs[i].value = rowOf b (width T b) elems[i] := by
  have hve : values.length = elems.length := by simpa using congrArg List.length hdec
  unfold KVShard.fromBase64Strings at h
  obtain ⟨db, hdb, h⟩ := Res.bind_eq_ok.1 h
  unfold KVDatabase.fromBase64Strings at hdb
  split at hdb
  · cases hdb
  · rename_i hl
    have hl : keys.length = values.length := by omega
    refine ⟨by omega, ?_⟩
    split at hdb
    · rename_i kvs hc
      have hm := collectEager_eq_ok.1 hc
      have hml := mapRes_length hm
      have hkl : kvs.length = keys.length := by rw [hml]; simp [hl]
      refine ⟨kvs, ?_, hkl, ?_⟩
      · unfold KVShard.new
        rw [hdb]
        exact h
      · intro i hk hi he
        have e := mapRes_getElem hm (i := i) (by simp; omega) hk
        simp only [List.getElem_zip] at e
        unfold KeyValue.fromBase64Strings at e
        obtain ⟨key, e1, e⟩ := Res.bind_eq_ok.1 e
        obtain ⟨value, e2, e⟩ := Res.bind_eq_ok.1 e
        have hkv := Res.ok.inj e
        rw [← hkv]
        refine ⟨e1, ?_⟩
        have hd : b64Decode values[i] = .ok elems[i] := by
          have := congrArg (fun l => l[i]?) hdec
          simpa [show i < values.length by omega, he] using this
        rw [kvConstructRow_eq hb1, constructRow_ok hb hd
          (le_trans (width_mul_le (by omega)) (hlen _ (List.getElem_mem he)))] at e2
        exact (Res.ok.inj e2).symm
    · cases hdb
    · cases hdb
    · cases hdb

/-- **C52 (keyword).** End to end with strings: for a shard built from keywords and base64 values, and a
stored keyword whose key hash differs from that of every other stored keyword, querying the key derived
from the keyword and parsing the response gives the stored bytes and their base64 form, whenever the
noise is in the window for every column, `b` does not divide `T`, values have exactly `T` bits and (in
release builds) no filter slot is shared by 64 or more keys. -/
theorem C52_kv_bytes (prof : Profile) (sha : Sha) (prg : Prg) (pseed : List U8) (segExp cap0 : Nat)
    (fp0 : Nat → Nat → U32) (filterSeed : List U8) (keywords : List (List U8))
    (values : List (List Char)) (elems : List (List U8)) (n m T b : Nat) (shard : KVShard)
    (hb1 : 1 ≤ b) (hb : b ≤ 31) (hT : T < 2 ^ 64)
    (hdec : values.map b64Decode = elems.map Res.ok) (hlen : ∀ e ∈ elems, T = 8 * e.length)
    (hdvd : ¬ b ∣ T)
    (hsh : KVShard.fromBase64Strings prof sha prg pseed segExp cap0 fp0 filterSeed keywords values
      n m T b = .ok shard)
    (hload : prof = .debug ∨ ∀ keys, mapRes (sha256IntoU64Sized sha) keywords = .ok keys →
      ∀ s, slotLoad filterSeed shard.db.filterParams.geom keys s < 64)
    (hdist : ∀ i j (hi : i < keywords.length) (hj : j < keywords.length) k₁ k₂,
      sha256IntoU64Sized sha keywords[i] = .ok k₁ → sha256IntoU64Sized sha keywords[j] = .ok k₂ →
      mix256 k₁ filterSeed = mix256 k₂ filterSeed → i = j)
    (tape tape' : List U32) (qp : QueryParams FilterParams)
    (hgen : generateKvQueryParams (commonParamsFrom prg shard.baseParams.publicSeed
      shard.baseParams.dim shard.baseParams.m) shard.baseParams tape = .ok (qp, tape')) :
    ∃ s t1 e, randomTernaryVector n tape = .ok (s, t1) ∧
      randomTernaryVector shard.baseParams.m t1 = .ok (e, tape') ∧
      ((∀ col ∈ shard.db.entries, InWindow b (dot e col)) →
        ∀ i (hi : i < keywords.length) (he : i < elems.length),
          ∃ key qp' q bytes resp, sha256IntoU64Sized sha keywords[i] = .ok key ∧
            qp.generateKvQuery prof key = (qp', .ok q) ∧ shard.respond q = .ok bytes ∧
            bincodeDeserialize bytes = .ok resp ∧
            qp'.parseKvBytes prof resp key = .ok elems[i] ∧
            qp'.parseKvBase64 prof resp key = .ok (b64Encode elems[i])) := by
  obtain ⟨hke, kvs, hnew, hkl, hkv⟩ := kvStrings_ok hb1 (by omega) hdec (fun e he => le_of_eq (hlen e he)) hsh
  obtain ⟨s, t1, e, hs, he, hent, hall⟩ := C04_kv_pir prof prg pseed segExp cap0 fp0 filterSeed kvs n m
    T b shard hb1 hb hT hnew
    (by
      intro kv hk
      obtain ⟨i, hi, rfl⟩ := List.getElem_of_mem hk
      rw [(hkv i hi (by omega) (by omega)).2, rowOf_length])
    (hload.imp_right fun h => h _ (by
      rw [mapRes_eq_ok]
      apply List.ext_getElem (by simp; omega)
      intro k h1 h2
      simp only [List.getElem_map]
      simp only [List.length_map] at h1 h2
      exact (hkv k (by omega) h1 (by omega)).1))
    tape tape' qp hgen
  refine ⟨s, t1, e, hs, he, ?_⟩
  intro hwin i hi hie
  obtain ⟨hkey, hval⟩ := hkv i (by omega) hi hie
  obtain ⟨qp', q, bytes, resp, row, h1, h2, h3, h4, h5, _, h7⟩ := hall i (by omega)
    (by
      intro k hk hik hh
      have := hdist k i (by omega) hi _ _ (hkv k hk (by omega) (by omega)).1 hkey hh
      omega)
  have hrow := h7.2 hwin
  rw [hval] at hrow
  have hrow' : row = (List.range ((T + b - 1) / b)).map fun j =>
      BitVec.ofNat 32 (digit b (leNat elems[i]) j) := by
    rw [hrow]
    unfold rowOf width
    rw [List.map_map]
    apply List.map_congr_left
    intro j _
    simp only [Function.comp]
    rw [digit_toNat (by omega), Nat.mod_eq_of_lt (digit_lt _ _ _)]
  have hqp' : qp'.plaintextBits = b ∧ qp'.elemSize = T := by
    unfold generateKvQueryParams at hgen
    obtain ⟨⟨s', t1'⟩, g1, hgen⟩ := Res.bind_eq_ok.1 hgen
    obtain ⟨⟨lhs, t2⟩, g2, hgen⟩ := Res.bind_eq_ok.1 hgen
    obtain ⟨r, g3, hgen⟩ := Res.bind_eq_ok.1 hgen
    simp only [Res.ok.injEq, Prod.mk.injEq] at hgen
    have hbp : shard.baseParams.plaintextBits = b ∧ shard.baseParams.elemSize = T := by
      unfold KVShard.new at hnew
      obtain ⟨db, hdb, hnew⟩ := Res.bind_eq_ok.1 hnew
      obtain ⟨bp, hbp, hnew⟩ := Res.bind_eq_ok.1 hnew
      cases hnew
      unfold KVParams.new at hbp
      obtain ⟨rhs, _, hbp⟩ := Res.bind_eq_ok.1 hbp
      obtain ⟨hgt, _, hbp⟩ := Res.bind_eq_ok.1 hbp
      cases hbp
      obtain ⟨_, _, _, _, _, _, _, _, _, _, a1, a2, _⟩ := kvNew_ok hdb
      exact ⟨a2, a1⟩
    have hu : qp.used = false := by rw [← hgen.1]
    rw [kvQuery_fresh hu] at h1
    have := congrArg Prod.fst h1
    simp only at this
    rw [← this, ← hgen.1]
    exact hbp
  obtain ⟨bs, e1, e2, e3⟩ := decode_digits (prof := prof) (N := leNat elems[i]) (T := T) (b := b)
    (by omega) (by omega) hdvd
  have hTi := hlen elems[i] (List.getElem_mem hie)
  have hbytes : bs = elems[i] := by
    apply leNat_inj
    · omega
    · rw [e3, hTi]
      apply Nat.mod_eq_of_lt
      have := leNat_lt elems[i]
      rwa [show (256 : Nat) = 2 ^ 8 by rfl, ← Nat.pow_mul] at this
  rw [hbytes] at e1
  refine ⟨_, qp', q, bytes, resp, hkey, h1, h2, h3, ?_, ?_⟩
  · unfold QueryParams.parseKvBytes
    rw [h4, Res.bind_ok, hqp'.1, hqp'.2, hrow', e1]
  · unfold QueryParams.parseKvBase64 base64FromU32Slice
    rw [h4, Res.bind_ok, hqp'.1, hqp'.2, hrow', e1]
    rfl

/-! ## Non-vacuity -/

/-- Example data: three keyword/value pairs, a toy 32-byte "hash", toy public randomness. -/
def kvExSha : Sha := fun x => (x ++ List.replicate 32 3#8).take 32
def kvExPrg : Prg := fun _ i => BitVec.ofNat 32 (i * 2654435761 + 12345)
def kvExSeed : List U8 := List.replicate 31 5#8 ++ [1#8]
def kvExKeys : List (List U8) := [[1#8], [2#8, 9#8], [7#8]]
def kvExElems : List (List U8) := [[0x12#8, 0x34#8], [0xff#8, 0xfe#8], [0#8, 0x80#8]]
def kvExShard : Res KVShard :=
  KVShard.fromBase64Strings .debug kvExSha kvExPrg [7#8] 2 12 (fun i j => BitVec.ofNat 32 (i*31+j*977))
    kvExSeed kvExKeys (kvExElems.map b64Encode) 2 99 16 9
def kvExTape : List U32 := (List.range 40).map fun i => BitVec.ofNat 32 (i * 987654321)

/-- One complete exchange: build, query, respond, deserialise, parse. -/
def kvExRun (kw : List U8) : Res (List U8 × List U32) := do
  let sh ← kvExShard
  let (qp, _) ← generateKvQueryParams (commonParamsFrom kvExPrg sh.baseParams.publicSeed sh.baseParams.dim sh.baseParams.m) sh.baseParams kvExTape
  let key ← sha256IntoU64Sized kvExSha kw
  let (qp', q) := qp.generateKvQuery .debug key
  let q ← q
  let bytes ← sh.respond q
  let resp ← bincodeDeserialize bytes
  let b ← qp'.parseKvBytes .debug resp key
  let r ← qp'.parseKvRow .debug resp key
  .ok (b, r)

/-- Non-vacuity of C04, C37, C52: every stored keyword of the example is recovered by a complete run. -/
example : kvExRun [1#8] = .ok ([0x12#8, 0x34#8], [0x12#32, 0x1a#32]) := by decide +kernel
example : kvExRun [2#8, 9#8] = .ok ([0xff#8, 0xfe#8], [0xff#32, 0x7f#32]) := by decide +kernel
example : kvExRun [7#8] = .ok ([0#8, 0x80#8], [0#32, 0x40#32]) := by decide +kernel

/-- Non-vacuity of C39: a keyword that was never stored runs through without any error. -/
example : kvExRun [8#8] = .ok ([0x37#8, 0x54#8], [0x37#32, 0x12a#32]) := by decide +kernel

/-- The hash-distinctness hypothesis of C52 holds in the example, and so does `¬ b ∣ T`. -/
example : (kvExKeys.map fun k => sha256IntoU64Sized kvExSha k >>= fun key => mix256 key kvExSeed).Nodup ∧
    ¬ 9 ∣ 16 := by decide +kernel

end Chalamet
