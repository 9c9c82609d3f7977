import Verif.Model.Files

/-!
# Persistence and JSON: C47, C48, C49, C54, C55
-/

namespace Chalamet

/-! ## Decoding what was encoded -/

theorem decNat_jNat {b n : Nat} (h : n < b) : decNat b (jNat n) = .ok n := by
  unfold decNat jNat
  simp only
  rw [if_pos ⟨by omega, by exact_mod_cast h⟩]
  simp

theorem decUsize_jNat {n : Nat} (h : n < 2 ^ 64) : decUsize (jNat n) = .ok n := decNat_jNat h

theorem decU32_jNat (x : U32) : decU32 (jNat x.toNat) = .ok x := by
  unfold decU32
  rw [decNat_jNat x.isLt, Res.bind_ok, BitVec.ofNat_toNat, BitVec.setWidth_eq]

theorem decU8_jNat (x : U8) : decU8 (jNat x.toNat) = .ok x := by
  unfold decU8
  rw [decNat_jNat x.isLt, Res.bind_ok, BitVec.ofNat_toNat, BitVec.setWidth_eq]

theorem mapRes_map_ok {α β : Type} {dec : Json → Res β} {enc : α → Json} {f : α → β}
    (h : ∀ a, dec (enc a) = .ok (f a)) (l : List α) : mapRes dec (l.map enc) = .ok (l.map f) := by
  rw [mapRes_eq_ok, List.map_map, List.map_map]
  exact List.map_congr_left fun a _ => h a

theorem decList_jU32s (l : List U32) : decList decU32 (jU32s l) = .ok l := by
  unfold jU32s decList
  simpa using mapRes_map_ok (f := id) decU32_jNat l

theorem decList_jMatrix (l : List (List U32)) : decList (decList decU32) (jMatrix l) = .ok l := by
  have h := mapRes_map_ok (f := id) decList_jU32s l
  rw [List.map_id] at h
  unfold jMatrix
  exact h

theorem decSeed_jBytes {l : List U8} (h : l.length = 32) : decSeed (jBytes l) = .ok l := by
  unfold decSeed jBytes decList
  simp only
  rw [mapRes_map_ok (f := id) decU8_jNat l, Res.bind_ok, List.map_id, if_pos h]

theorem decOption_jOption {α : Type} {enc : α → Json} {dec : Json → Res α}
    (h : ∀ a, dec (enc a) = .ok a) (hn : ∀ a, enc a ≠ .null) (o : Option α) :
    decOption dec (jOption enc o) = .ok o := by
  cases o with
  | none => rfl
  | some a =>
    unfold jOption
    simp only
    have : decOption dec (enc a) = (dec (enc a) >>= fun a => .ok (some a)) := by
      unfold decOption
      split
      · rename_i he; exact absurd he (hn a)
      · rfl
    rw [this, h]
    rfl

theorem structFields_obj_self {names : List String} {vals : List Json} (hl : names.length = vals.length)
    (hn : names.Nodup) : structFields names (.obj (names.zip vals)) = .ok (vals.map some) := by
  unfold structFields
  simp only
  have hfil : ∀ (ns : List String) (vs : List Json), ns.Nodup → ∀ n,
      ((ns.zip vs).filter fun kv => kv.1 = n).length ≤ 1 := by
    intro ns
    induction ns with
    | nil => intro vs _ n; simp
    | cons a ns ih =>
      intro vs hnd n
      cases vs with
      | nil => simp
      | cons v vs =>
        rw [List.nodup_cons] at hnd
        rw [List.zip_cons_cons, List.filter_cons]
        by_cases e : a = n
        · have : (ns.zip vs).filter (fun kv => decide (kv.1 = n)) = [] := by
            rw [List.filter_eq_nil_iff]
            intro kv hkv
            have := (List.of_mem_zip (a := kv.1) (b := kv.2) hkv).1
            simp only [decide_eq_true_eq]
            rintro rfl
            exact hnd.1 (e ▸ this)
          simp [e, this]
        · simp only [e, decide_false]
          exact ih vs hnd.2 n
  rw [if_neg (by
    rw [List.any_eq_true]
    rintro ⟨n, _, hlt⟩
    have := hfil names vals hn n
    simp only [decide_eq_true_eq] at hlt
    omega)]
  congr 1
  clear hfil
  induction names generalizing vals with
  | nil => cases vals with
    | nil => rfl
    | cons v vs => simp at hl
  | cons a ns ih =>
    cases vals with
    | nil => simp at hl
    | cons v vs =>
      rw [List.nodup_cons] at hn
      rw [List.map_cons, List.map_cons]
      congr 1
      · simp
      · rw [← ih (vals := vs) (by simpa using hl) hn.2]
        apply List.map_congr_left
        intro n hmem
        have : a ≠ n := by rintro rfl; exact hn.1 hmem
        rw [List.zip_cons_cons, List.find?_cons]
        simp [this]

theorem req_some {α : Type} (dec : Json → Res α) (j : Json) : req dec (some j) = dec j := by
  rw [req]

/-- **C54 (index parameters).** Serialising index parameters with serde and deserialising the document
gives the parameters back (a seed has 32 bytes and sizes fit in 64 bits in every Rust value). -/
theorem C54_index_params (p : IndexParams) (hs : p.publicSeed.length = 32) (h1 : p.dim < 2 ^ 64)
    (h2 : p.m < 2 ^ 64) (h3 : p.elemSize < 2 ^ 64) (h4 : p.plaintextBits < 2 ^ 64) :
    IndexParams.fromJson p.toJson = .ok p := by
  have := structFields_obj_self
    (names := ["dim", "m", "public_seed", "rhs", "elem_size", "plaintext_bits"])
    (vals := [jNat p.dim, jNat p.m, jBytes p.publicSeed, jMatrix p.rhs, jNat p.elemSize,
      jNat p.plaintextBits]) (by simp) (by simp)
  simp only [List.zip_cons_cons, List.zip_nil_left, List.map_cons, List.map_nil] at this
  unfold IndexParams.fromJson IndexParams.toJson
  rw [this, Res.bind_ok, IndexParams.ofFields, req_some, decUsize_jNat h1, Res.bind_ok, req_some,
    decUsize_jNat h2, Res.bind_ok, req_some, decSeed_jBytes hs, Res.bind_ok, req_some, decList_jMatrix,
    Res.bind_ok, req_some, decUsize_jNat h3, Res.bind_ok, req_some, decUsize_jNat h4, Res.bind_ok]

/-- Filter parameters. -/
theorem C54_filter_params (p : FilterParams) (hs : p.seed.length = 32) :
    FilterParams.fromJson p.toJson = .ok p := by
  have := structFields_obj_self
    (names := ["seed", "segment_length", "segment_length_mask", "segment_count_length"])
    (vals := [jBytes p.seed, jNat p.geom.segmentLength.toNat, jNat p.geom.segmentLengthMask.toNat,
      jNat p.geom.segmentCountLength.toNat]) (by simp) (by simp)
  simp only [List.zip_cons_cons, List.zip_nil_left, List.map_cons, List.map_nil] at this
  unfold FilterParams.fromJson FilterParams.toJson
  rw [this, Res.bind_ok, FilterParams.ofFields, req_some, decSeed_jBytes hs, Res.bind_ok, req_some,
    decU32_jNat, Res.bind_ok, req_some, decU32_jNat, Res.bind_ok, req_some, decU32_jNat, Res.bind_ok]

/-- **C54 (keyword parameters).** The same for the parameters of a keyword shard. -/
theorem C54_kv_params (p : KVParams) (hs : p.publicSeed.length = 32)
    (hf : p.filterParams.seed.length = 32) (h1 : p.dim < 2 ^ 64)
    (h2 : p.m < 2 ^ 64) (h3 : p.elemSize < 2 ^ 64) (h4 : p.plaintextBits < 2 ^ 64) :
    KVParams.fromJson p.toJson = .ok p := by
  have := structFields_obj_self
    (names := ["dim", "m", "public_seed", "rhs", "elem_size", "plaintext_bits", "filter_params"])
    (vals := [jNat p.dim, jNat p.m, jBytes p.publicSeed, jMatrix p.rhs, jNat p.elemSize,
      jNat p.plaintextBits, p.filterParams.toJson]) (by simp) (by simp)
  simp only [List.zip_cons_cons, List.zip_nil_left, List.map_cons, List.map_nil] at this
  unfold KVParams.fromJson KVParams.toJson
  rw [this, Res.bind_ok, KVParams.ofFields, req_some, decUsize_jNat h1, Res.bind_ok, req_some,
    decUsize_jNat h2, Res.bind_ok, req_some, decSeed_jBytes hs, Res.bind_ok, req_some, decList_jMatrix,
    Res.bind_ok, req_some, decUsize_jNat h3, Res.bind_ok, req_some, decUsize_jNat h4, Res.bind_ok, req_some,
    C54_filter_params _ hf, Res.bind_ok]

theorem queryParams_json {EP : Type} {enc : EP → Json} {dec : Json → Res EP} (q : QueryParams EP)
    (he : ∀ a, q.extraParams = some a → dec (enc a) = .ok a) (hn : ∀ a, enc a ≠ .null)
    (h3 : q.elemSize < 2 ^ 64) (h4 : q.plaintextBits < 2 ^ 64) :
    QueryParams.fromJson dec (q.toJson enc) = .ok q := by
  have := structFields_obj_self
    (names := ["lhs", "rhs", "elem_size", "plaintext_bits", "db", "extra_params", "used"])
    (vals := [jU32s q.lhs, jU32s q.rhs, jNat q.elemSize, jNat q.plaintextBits, .null,
      jOption enc q.extraParams, .bool q.used]) (by simp) (by simp)
  simp only [List.zip_cons_cons, List.zip_nil_left, List.map_cons, List.map_nil] at this
  have ho : opt dec (some (jOption enc q.extraParams)) = .ok q.extraParams := by
    rw [opt]
    cases hq : q.extraParams with
    | none => rfl
    | some a =>
      unfold jOption
      simp only
      have : decOption dec (enc a) = (dec (enc a) >>= fun a => .ok (some a)) := by
        unfold decOption
        split
        · rename_i hnull; exact absurd hnull (hn a)
        · rfl
      rw [this, he a hq]
      rfl
  have hb : decBool (.bool q.used) = .ok q.used := rfl
  have hnl : decNull .null = .ok () := rfl
  unfold QueryParams.fromJson QueryParams.toJson
  rw [this, Res.bind_ok, QueryParams.ofFields, req_some, decList_jU32s, Res.bind_ok, req_some,
    decList_jU32s, Res.bind_ok, req_some, decUsize_jNat h3, Res.bind_ok, req_some, decUsize_jNat h4,
    Res.bind_ok, req_some, hnl, Res.bind_ok, ho, Res.bind_ok, req_some, hb, Res.bind_ok]

/-- **C54 (query parameters).** The same for the client's query parameters, index and keyword; in
particular a spent object stays spent through a save and restore. -/
theorem C54_query_params :
    (∀ q : QueryParams Unit, q.elemSize < 2 ^ 64 → q.plaintextBits < 2 ^ 64 →
      QueryParams.fromJson emptyAuxFromJson (q.toJson emptyAuxToJson) = .ok q) ∧
    ∀ q : QueryParams FilterParams, (∀ fp, q.extraParams = some fp → fp.seed.length = 32) →
      q.elemSize < 2 ^ 64 → q.plaintextBits < 2 ^ 64 →
      QueryParams.fromJson FilterParams.fromJson (q.toJson FilterParams.toJson) = .ok q := by
  constructor
  · intro q h1 h2
    refine queryParams_json q ?_ ?_ h1 h2
    · intro a _; rfl
    · intro a h; exact Json.noConfusion h
  · intro q hq h1 h2
    refine queryParams_json q ?_ ?_ h1 h2
    · intro a ha; exact C54_filter_params a (hq a ha)
    · intro a h; exact Json.noConfusion h

/-! ## Files -/

theorem readJson_put (fs : FS) (path : Path) (j : Json) :
    readJson true (fs.put path (.json j)) path = .ok j := by
  simp [readJson, FS.put]

/-- **C47.** What `write_to_file` puts in the parameter file is never readable by `IndexParams::load`: for
every shard, every file system and all paths, after a successful `Shard::write_to_file`, `load` of the
parameter path returns an error (whatever the operating system does: never parameters, never a panic). -/
theorem C47_params_not_loadable (s : Shard) (fs fs' : FS) (dbPath paramsPath : Path)
    (ev₁ ev₂ : WriteEvent) (h : s.writeToFile ev₁ ev₂ fs dbPath paramsPath = (fs', .ok ()))
    (readable : Bool) :
    ∃ e, IndexParams.load readable fs' paramsPath = .err e := by
  have hfs : fs' paramsPath = some (.json (paramsFileJson s.baseParams.publicSeed s.baseParams.rhs)) := by
    unfold Shard.writeToFile writeTwo at h
    cases ev₁ <;> simp only [writeJson] at h
    · cases h
    · cases h
    · cases ev₂ <;> simp only at h
      · cases h
      · cases h
      · cases h
        simp [FS.put]
  unfold IndexParams.load readJson
  rw [hfs]
  cases readable
  · exact ⟨.io, rfl⟩
  · exact ⟨.json, by
      simp [IndexParams.fromJson, paramsFileJson, structFields, IndexParams.ofFields, req]⟩

/-- **C48.** What `write_to_file` puts in the database file is never readable by
`IndexDatabase::from_file`: for every shard, file system, paths (equal or not) and requested dimensions the
result is an error or (only for a database without columns in a file of its own) a panic, never a database. -/
theorem C48_db_not_loadable (prof : Profile) (s : Shard) (fs fs' : FS) (dbPath paramsPath : Path)
    (ev₁ ev₂ : WriteEvent)
    (h : s.writeToFile ev₁ ev₂ fs dbPath paramsPath = (fs', .ok ()))
    (readable : Bool) (m elemSize plaintextBits : Nat) :
    (dbPath = paramsPath ∨ s.db.entries ≠ [] →
      ∃ e, IndexDatabase.fromFile prof readable fs' dbPath m elemSize plaintextBits = .err e) ∧
    (dbPath ≠ paramsPath → s.db.entries = [] →
      IndexDatabase.fromFile prof true fs' dbPath m elemSize plaintextBits = .panic) := by
  by_cases hp : dbPath = paramsPath
  · have hfs : fs' dbPath = some (.json (paramsFileJson s.baseParams.publicSeed s.baseParams.rhs)) := by
      unfold Shard.writeToFile writeTwo at h
      cases ev₁ <;> simp only [writeJson] at h
      · cases h
      · cases h
      · cases ev₂ <;> simp only at h
        · cases h
        · cases h
        · cases h
          simp [FS.put, hp]
    refine ⟨fun _ => ?_, fun hne => absurd hp hne⟩
    unfold IndexDatabase.fromFile readJson
    rw [hfs]
    cases readable
    · exact ⟨.io, rfl⟩
    · exact ⟨.json, by simp [paramsFileJson, decList]⟩
  rw [show (dbPath = paramsPath ∨ s.db.entries ≠ []) ↔ s.db.entries ≠ [] from ⟨fun h => h.resolve_left hp, Or.inr⟩]
  refine and_congr_right' (⟨fun h => h hp, fun h _ => h⟩) |>.2 ?_
  have hfs : fs' dbPath = some (.json (jMatrix s.db.entries)) := by
    unfold Shard.writeToFile writeTwo at h
    cases ev₁ <;> simp only [writeJson] at h
    · cases h
    · cases h
    · cases ev₂ <;> simp only at h
      · cases h
      · cases h
      · cases h
        simp [FS.put, hp]
  constructor
  · intro hne
    unfold IndexDatabase.fromFile readJson
    rw [hfs]
    cases readable
    · exact ⟨.io, rfl⟩
    · refine ⟨.json, ?_⟩
      cases he : s.db.entries with
      | nil => exact absurd he hne
      | cons a l =>
        simp [jMatrix, decList, mapRes_cons, jU32s, decString]
  · intro he
    unfold IndexDatabase.fromFile readJson
    rw [hfs, he]
    simp only [jMatrix, List.map_nil, decList, mapRes_nil, Res.bind_ok]
    unfold IndexDatabase.new constructRows
    cases hw : getRowWidth elemSize plaintextBits with
    | panic => rfl
    | diverge => unfold getRowWidth at hw; split at hw <;> cases hw
    | err e => unfold getRowWidth at hw; split at hw <;> cases hw
    | ok w =>
      simp only [Res.bind_ok]
      cases m with
      | zero => rfl
      | succ m =>
        rw [List.range_succ_eq_map, mapRes_cons, rd_panic (by simp)]
        rfl

/-- **C49.** `write_to_file` of either kind of shard, whatever the operating system does at each of the
two writes (including dying midway): paths other than the two are untouched; if the first file cannot be
created nothing changes at all; the parameter file is not touched unless the database file was completely
written; and on success each file holds its document (the parameter document, if the paths coincide). -/
theorem C49_write_two_files (ev₁ ev₂ : WriteEvent) (fs : FS) (dbPath paramsPath : Path)
    (s : Shard) (k : KVShard) :
    ∀ w : (FS × Res Unit) × Json × Json,
      (w = (s.writeToFile ev₁ ev₂ fs dbPath paramsPath, jMatrix s.db.entries,
              paramsFileJson s.baseParams.publicSeed s.baseParams.rhs) ∨
       w = (k.writeToFile ev₁ ev₂ fs dbPath paramsPath, jMatrix k.db.entries,
              paramsFileJson k.baseParams.publicSeed k.baseParams.rhs)) →
      (∀ p, p ≠ dbPath → p ≠ paramsPath → w.1.1 p = fs p) ∧
      (ev₁ = .createFails → w.1 = (fs, .err .io)) ∧
      (paramsPath ≠ dbPath → w.1.1 paramsPath ≠ fs paramsPath →
        w.1.1 dbPath = some (.json w.2.1)) ∧
      (w.1.2 = .ok () ↔ ev₁ = .succeeds ∧ ev₂ = .succeeds) ∧
      (w.1.2 = .ok () → w.1.1 paramsPath = some (.json w.2.2) ∧
        (dbPath ≠ paramsPath → w.1.1 dbPath = some (.json w.2.1))) := by
  intro w hw
  have key : ∀ (d pdoc : Json),
      (∀ p, p ≠ dbPath → p ≠ paramsPath → (writeTwo ev₁ ev₂ fs dbPath paramsPath d pdoc).1 p = fs p) ∧
      (ev₁ = .createFails → (writeTwo ev₁ ev₂ fs dbPath paramsPath d pdoc) = (fs, .err .io)) ∧
      (paramsPath ≠ dbPath → (writeTwo ev₁ ev₂ fs dbPath paramsPath d pdoc).1 paramsPath ≠ fs paramsPath →
        (writeTwo ev₁ ev₂ fs dbPath paramsPath d pdoc).1 dbPath = some (.json d)) ∧
      ((writeTwo ev₁ ev₂ fs dbPath paramsPath d pdoc).2 = .ok () ↔ ev₁ = .succeeds ∧ ev₂ = .succeeds) ∧
      ((writeTwo ev₁ ev₂ fs dbPath paramsPath d pdoc).2 = .ok () →
        (writeTwo ev₁ ev₂ fs dbPath paramsPath d pdoc).1 paramsPath = some (.json pdoc) ∧
        (dbPath ≠ paramsPath →
          (writeTwo ev₁ ev₂ fs dbPath paramsPath d pdoc).1 dbPath = some (.json d))) := by
    intro d pdoc
    unfold writeTwo
    cases ev₁ <;> cases ev₂ <;> simp (config := { contextual := true }) [writeJson, FS.put]
    · rintro h1 h2 rfl; exact absurd rfl h1
    · rintro h1 h2 rfl; exact absurd rfl h1
  rcases hw with rfl | rfl
  · exact key _ _
  · exact key _ _

/-- **C55.** Loading from a JSON file: a readable file holding an array of strings gives exactly what
building from those strings gives; in every other case (missing or unreadable file, text that is not JSON,
JSON of another shape) `from_file` returns an error while `Shard::from_json_file` panics. -/
theorem C55_index_from_json (prof : Profile) (prg : Prg) (publicSeed : List U8) (fs : FS) (path : Path)
    (lweDim m elemSize plaintextBits : Nat) :
    (∀ strs : List (List Char), fs path = some (.json (.arr (strs.map .str))) →
      IndexDatabase.fromFile prof true fs path m elemSize plaintextBits =
        IndexDatabase.new prof strs m elemSize plaintextBits ∧
      Shard.fromJsonFile prof prg publicSeed true fs path lweDim m elemSize plaintextBits =
        Shard.fromBase64Strings prof prg publicSeed strs lweDim m elemSize plaintextBits) ∧
    (∀ readable, (readable = true → ∀ strs : List (List Char), fs path ≠ some (.json (.arr (strs.map .str)))) →
      (∃ e, IndexDatabase.fromFile prof readable fs path m elemSize plaintextBits = .err e) ∧
      Shard.fromJsonFile prof prg publicSeed readable fs path lweDim m elemSize plaintextBits = .panic) := by
  constructor
  · intro strs h
    have hd : decList decString (.arr (strs.map Json.str)) = .ok strs := by
      unfold decList
      simpa using mapRes_map_ok (dec := decString) (enc := Json.str) (f := id) (fun _ => rfl) strs
    constructor
    · unfold IndexDatabase.fromFile readJson
      rw [h]
      simp only [Res.bind_ok, hd]
    · unfold Shard.fromJsonFile readJson
      rw [h]
      simp only [Res.bind_ok, hd, Res.unwrap_ok]
  · intro readable h
    have key : ∃ e, (readJson readable fs path >>= decList decString) = .err e := by
      unfold readJson
      cases readable with
      | false => exact ⟨.io, rfl⟩
      | true =>
        have h := h rfl
        match hc : fs path with
        | none => exact ⟨.io, rfl⟩
        | some (.raw _) => exact ⟨.json, rfl⟩
        | some (.json j) =>
          refine ⟨.json, ?_⟩
          simp only [Res.bind_ok]
          cases j with
          | arr l =>
            have hl : ∀ strs : List (List Char), l ≠ strs.map .str := by
              intro strs he
              exact h strs (by rw [hc, he])
            clear h hc
            unfold decList
            simp only
            induction l with
            | nil => exact absurd rfl (hl [])
            | cons a l ih =>
              rw [mapRes_cons]
              cases a with
              | str s =>
                simp only [decString, Res.bind_ok]
                rw [ih (by
                  intro strs he
                  exact hl (s :: strs) (by rw [he]; rfl))]
                rfl
              | _ => rfl
          | _ => rfl
    obtain ⟨e, he⟩ := key
    constructor
    · refine ⟨e, ?_⟩
      unfold IndexDatabase.fromFile
      rw [← Res.bind_assoc', he]
      rfl
    · unfold Shard.fromJsonFile
      rw [he]
      rfl

/-- **C55 (keyword).** A readable file holding an array of objects with string fields `key` and `value`
gives exactly what `KVShard::from_base64_strings` gives for those keys and values; a missing or unreadable
file, or text that is not JSON, panics. -/
theorem C55_kv_from_json (prof : Profile) (prg : Prg) (publicSeed : List U8) (sha : Sha)
    (utf8 : List Char → List U8) (segExp cap0 : Nat) (fp0 : Nat → Nat → U32) (filterSeed : List U8)
    (fs : FS) (path : Path) (lweDim m elemSize plaintextBits : Nat) :
    (∀ kvs : List (List Char × List Char),
      fs path = some (.json (.arr (kvs.map fun kv => .obj [("key", .str kv.1), ("value", .str kv.2)]))) →
      KVShard.fromJsonFile prof prg publicSeed sha utf8 segExp cap0 fp0 filterSeed true fs path lweDim m
          elemSize plaintextBits =
        KVShard.fromBase64Strings prof sha prg publicSeed segExp cap0 fp0 filterSeed
          (kvs.map fun kv => utf8 kv.1) (kvs.map fun kv => kv.2) lweDim m elemSize plaintextBits) ∧
    (∀ readable, (readable = true → ∀ j, fs path ≠ some (.json j)) →
      KVShard.fromJsonFile prof prg publicSeed sha utf8 segExp cap0 fp0 filterSeed readable fs path lweDim m
          elemSize plaintextBits = .panic) := by
  constructor
  · intro kvs h
    have h1 : ∀ kv : List Char × List Char,
        decEncodedKV (.obj [("key", .str kv.1), ("value", .str kv.2)]) = .ok kv := by
      intro kv
      have := structFields_obj_self (names := ["key", "value"]) (vals := [.str kv.1, .str kv.2]) (by simp)
        (by decide)
      simp only [List.zip_cons_cons, List.zip_nil_left, List.map_cons, List.map_nil] at this
      unfold decEncodedKV
      rw [this]
      rfl
    have hd := mapRes_map_ok (f := id) h1 kvs
    rw [List.map_id] at hd
    unfold KVShard.fromJsonFile readJson
    rw [h]
    simp only [Res.bind_ok, decList, hd, Res.unwrap_ok]
  · intro readable h
    unfold KVShard.fromJsonFile readJson
    cases readable with
    | false => rfl
    | true =>
      match hc : fs path with
      | none => rfl
      | some (.raw _) => rfl
      | some (.json j) => exact absurd hc (h rfl j)

/-! ## Non-vacuity -/

/-- A shard to write. -/
def filesExShard : Shard :=
  { db := { entries := [[1#32, 2#32], [3#32, 4#32]], m := 2, elemSize := 8, plaintextBits := 5 }
    baseParams := { dim := 3, m := 2, publicSeed := List.replicate 32 7#8, rhs := [[1#32, 2#32, 3#32], [4#32, 5#32, 6#32]],
                    elemSize := 8, plaintextBits := 5 } }

/-- C47/C48/C49: writing succeeds on the empty file system. -/
example : (filesExShard.writeToFile .succeeds .succeeds (fun _ => none) "db".toList "params".toList).2
    = .ok () := rfl

/-- C47: but a file holding the serde document of the same parameters loads. -/
example : IndexParams.load true
    (FS.put (fun _ => none) "p".toList (.json filesExShard.baseParams.toJson)) "p".toList
    = .ok filesExShard.baseParams := by
  unfold IndexParams.load
  rw [readJson_put, Res.bind_ok]
  exact C54_index_params _ (by decide) (by decide) (by decide) (by decide) (by decide)

/-- C55: a file of two elements. -/
example : ∃ s, Shard.fromJsonFile .debug (fun _ i => BitVec.ofNat 32 i) (List.replicate 32 0#8) true
    (FS.put (fun _ => none) "f".toList (.json (.arr [.str "AQI=".toList, .str "Aw==".toList]))) "f".toList
    2 2 8 5 = .ok s := ⟨_, rfl⟩

end Chalamet
