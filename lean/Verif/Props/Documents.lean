import Mathlib.Tactic.Tauto
import Mathlib.Data.List.Basic
import Verif.Props.Files

/-!
# C83: which JSON documents load, and as what

C54 says that what serde writes is read back. Here is the converse: a document is accepted as a value of one of the derived
types exactly when it holds every field of that value, once, in the form serde writes it (as an object in any order and
with any other fields, or as an array of exactly the fields); so a document can be read in one way only, and everything
else is an error value, never a panic.
-/

namespace Chalamet

namespace Spec

/-- The document `j` holds the fields `names` with the values `vals`: it is an object in which every
one of the names occurs exactly once (other names are allowed anywhere), or the array of the values in order. -/
def Record (names : List String) (vals : List Json) (j : Json) : Prop :=
  j = .arr vals ∨ ∃ kvs, j = .obj kvs ∧ ∀ nv ∈ names.zip vals, (kvs.filter fun kv => kv.1 = nv.1) = [nv]

end Spec

/-! ## The decoders are the inverses of the encoders -/

theorem decNat_iff {B n : Nat} {j : Json} : decNat B j = .ok n ↔ j = jNat n ∧ n < B := by
  constructor
  · intro h
    cases j with
    | num k =>
      simp only [decNat] at h
      split at h
      · rename_i hk
        cases h
        refine ⟨?_, by omega⟩
        unfold jNat
        rw [Int.toNat_of_nonneg hk.1]
      · cases h
    | _ => simp [decNat] at h
  · rintro ⟨rfl, h⟩
    exact decNat_jNat h

theorem decUsize_iff {n : Nat} {j : Json} : decUsize j = .ok n ↔ j = jNat n ∧ n < 2 ^ 64 := decNat_iff

theorem decU32_iff {x : U32} {j : Json} : decU32 j = .ok x ↔ j = jNat x.toNat := by
  constructor
  · intro h
    unfold decU32 at h
    obtain ⟨n, hn, h⟩ := Res.bind_eq_ok.1 h
    cases h
    obtain ⟨rfl, hb⟩ := decNat_iff.1 hn
    rw [BitVec.toNat_ofNat, Nat.mod_eq_of_lt hb]
  · rintro rfl
    exact decU32_jNat x

theorem decU8_iff {x : U8} {j : Json} : decU8 j = .ok x ↔ j = jNat x.toNat := by
  constructor
  · intro h
    unfold decU8 at h
    obtain ⟨n, hn, h⟩ := Res.bind_eq_ok.1 h
    cases h
    obtain ⟨rfl, hb⟩ := decNat_iff.1 hn
    rw [BitVec.toNat_ofNat, Nat.mod_eq_of_lt hb]
  · rintro rfl
    exact decU8_jNat x

theorem decList_iff {α : Type} {dec : Json → Res α} {enc : α → Json} (h : ∀ j a, dec j = .ok a ↔ j = enc a)
    {j : Json} {l : List α} : decList dec j = .ok l ↔ j = .arr (l.map enc) := by
  constructor
  · intro hd
    cases j with
    | arr js =>
      simp only [decList, mapRes_eq_ok] at hd
      congr 1
      induction js generalizing l with
      | nil => cases l with
        | nil => rfl
        | cons a l => simp at hd
      | cons a js ih =>
        cases l with
        | nil => simp at hd
        | cons b l =>
          rw [List.map_cons, List.map_cons, List.cons.injEq] at hd
          rw [List.map_cons, (h a b).1 hd.1, ih hd.2]
    | _ => simp [decList] at hd
  · rintro rfl
    have := mapRes_map_ok (f := id) (fun a => (h (enc a) a).2 rfl) l
    rw [List.map_id] at this
    exact this

theorem decU32s_iff {l : List U32} {j : Json} : decList decU32 j = .ok l ↔ j = jU32s l :=
  decList_iff fun _ _ => decU32_iff

theorem decMatrix_iff {l : List (List U32)} {j : Json} : decList (decList decU32) j = .ok l ↔ j = jMatrix l :=
  decList_iff fun _ _ => decU32s_iff

theorem decSeed_iff {l : List U8} {j : Json} : decSeed j = .ok l ↔ j = jBytes l ∧ l.length = 32 := by
  unfold decSeed
  constructor
  · intro h
    obtain ⟨l', hl, h⟩ := Res.bind_eq_ok.1 h
    split at h
    · cases h
      rename_i hl'
      exact ⟨(decList_iff fun _ _ => decU8_iff).1 hl, hl'⟩
    · cases h
  · rintro ⟨rfl, h⟩
    exact decSeed_jBytes h

theorem decString_iff {s : List Char} {j : Json} : decString j = .ok s ↔ j = .str s := by
  cases j <;> simp [decString]

theorem decBool_iff {b : Bool} {j : Json} : decBool j = .ok b ↔ j = .bool b := by
  cases j <;> simp [decBool]

theorem decNull_iff {u : Unit} {j : Json} : decNull j = .ok u ↔ j = .null := by
  cases j <;> simp [decNull]

theorem req_iff {α : Type} {dec : Json → Res α} {o : Option Json} {a : α} :
    req dec o = .ok a ↔ ∃ j, o = some j ∧ dec j = .ok a := by
  cases o <;> simp [req]

/-- A derived struct holds the given fields. -/
theorem structFields_iff {names : List String} {vals : List Json} (hl : names.length = vals.length) {j : Json} :
    structFields names j = .ok (vals.map some) ↔ Spec.Record names vals j := by
  have key : ∀ (kvs : List (String × Json)) (n : String) (v : Json),
      (kvs.filter fun kv => kv.1 = n) = [(n, v)] ↔
        ¬ 1 < (kvs.filter fun kv => kv.1 = n).length ∧ (kvs.find? fun kv => kv.1 = n).map (·.2) = some v := by
    intro kvs n v
    rw [← List.head?_filter]
    have hm : ∀ kv ∈ kvs.filter (fun kv => decide (kv.1 = n)), kv.1 = n := fun kv h => by
      simpa using (List.mem_filter.1 h).2
    generalize kvs.filter (fun kv => decide (kv.1 = n)) = F at hm
    match F with
    | [] => simp
    | [(a, b)] =>
      have := hm (a, b) (by simp)
      simp only at this
      subst this
      simp
    | a :: b :: F => simp
  unfold Spec.Record
  cases j with
  | arr js =>
    simp only [structFields, Json.arr.injEq, reduceCtorEq, false_and, exists_false, or_false]
    split
    · rw [Res.ok.injEq]
      exact ⟨fun h => List.map_injective_iff.2 (fun a b h => Option.some.inj h) h, fun h => by rw [h]⟩
    · rename_i hne
      simp only [reduceCtorEq, false_iff]
      rintro rfl
      exact hne hl.symm
  | obj kvs =>
    simp only [structFields, reduceCtorEq, Json.obj.injEq, exists_eq_left', false_or]
    have hall : (∀ nv ∈ names.zip vals, (kvs.filter fun kv => kv.1 = nv.1) = [nv]) ↔
        (¬ ∃ n ∈ names, 1 < (kvs.filter fun kv => kv.1 = n).length) ∧
          names.map (fun n => (kvs.find? fun kv => kv.1 = n).map (·.2)) = vals.map some := by
      induction names generalizing vals with
      | nil => cases vals with
        | nil => simp
        | cons v vs => simp at hl
      | cons n names ih =>
        cases vals with
        | nil => simp at hl
        | cons v vals =>
          rw [List.zip_cons_cons, List.forall_mem_cons, ih (by simpa using hl), key kvs n v]
          simp only [List.mem_cons, exists_eq_or_imp, List.map_cons, List.cons.injEq, not_or]
          tauto
    rw [hall]
    split
    · rename_i h
      rw [List.any_eq_true] at h
      simp only [reduceCtorEq, false_iff]
      rintro ⟨h', _⟩
      obtain ⟨n, hn, h⟩ := h
      exact h' ⟨n, hn, by simpa using h⟩
    · rename_i h
      rw [List.any_eq_true] at h
      rw [Res.ok.injEq]
      refine ⟨fun h' => ⟨?_, h'⟩, fun h' => h'.2⟩
      rintro ⟨n, hn, h''⟩
      exact h ⟨n, hn, by simpa using h''⟩
  | _ => simp [structFields]

/-! ## C83 -/

/-- **C83 (index parameters).** A document is accepted as index parameters `p` iff it holds the six fields of `p`. -/
theorem C83_index_params (j : Json) (p : IndexParams) :
    IndexParams.fromJson j = .ok p ↔
      (p.publicSeed.length = 32 ∧ p.dim < 2 ^ 64 ∧ p.m < 2 ^ 64 ∧ p.elemSize < 2 ^ 64 ∧ p.plaintextBits < 2 ^ 64) ∧
      Spec.Record ["dim", "m", "public_seed", "rhs", "elem_size", "plaintext_bits"]
        [jNat p.dim, jNat p.m, jBytes p.publicSeed, jMatrix p.rhs, jNat p.elemSize, jNat p.plaintextBits] j := by
  rw [← structFields_iff (by simp)]
  unfold IndexParams.fromJson
  constructor
  · intro h
    obtain ⟨fs, hf, h⟩ := Res.bind_eq_ok.1 h
    rw [hf]
    match fs, h with
    | [a, b, c, d, e, f], h =>
      unfold IndexParams.ofFields at h
      obtain ⟨_, ha, h⟩ := Res.bind_eq_ok.1 h
      obtain ⟨_, hb, h⟩ := Res.bind_eq_ok.1 h
      obtain ⟨_, hc, h⟩ := Res.bind_eq_ok.1 h
      obtain ⟨_, hd, h⟩ := Res.bind_eq_ok.1 h
      obtain ⟨_, he, h⟩ := Res.bind_eq_ok.1 h
      obtain ⟨_, hf', h⟩ := Res.bind_eq_ok.1 h
      cases h
      simp only [req_iff, decUsize_iff, decSeed_iff, decMatrix_iff] at ha hb hc hd he hf'
      obtain ⟨_, rfl, rfl, h1⟩ := ha
      obtain ⟨_, rfl, rfl, h2⟩ := hb
      obtain ⟨_, rfl, rfl, h3⟩ := hc
      obtain ⟨_, rfl, rfl⟩ := hd
      obtain ⟨_, rfl, rfl, h4⟩ := he
      obtain ⟨_, rfl, rfl, h5⟩ := hf'
      exact ⟨⟨h3, h1, h2, h4, h5⟩, rfl⟩
  · rintro ⟨⟨hs, h1, h2, h3, h4⟩, hr⟩
    rw [hr, Res.bind_ok]
    simp only [List.map_cons, List.map_nil]
    rw [IndexParams.ofFields, req_some, decUsize_jNat h1, Res.bind_ok, req_some,
      decUsize_jNat h2, Res.bind_ok, req_some, decSeed_jBytes hs, Res.bind_ok, req_some, decList_jMatrix,
      Res.bind_ok, req_some, decUsize_jNat h3, Res.bind_ok, req_some, decUsize_jNat h4, Res.bind_ok]

/-- **C83 (filter parameters).** The same for the public parameters of a filter. -/
theorem C83_filter_params (j : Json) (p : FilterParams) :
    FilterParams.fromJson j = .ok p ↔
      p.seed.length = 32 ∧
      Spec.Record ["seed", "segment_length", "segment_length_mask", "segment_count_length"]
        [jBytes p.seed, jNat p.geom.segmentLength.toNat, jNat p.geom.segmentLengthMask.toNat,
          jNat p.geom.segmentCountLength.toNat] j := by
  rw [← structFields_iff (by simp)]
  unfold FilterParams.fromJson
  constructor
  · intro h
    obtain ⟨fs, hf, h⟩ := Res.bind_eq_ok.1 h
    rw [hf]
    match fs, h with
    | [a, b, c, d], h =>
      unfold FilterParams.ofFields at h
      obtain ⟨_, ha, h⟩ := Res.bind_eq_ok.1 h
      obtain ⟨_, hb, h⟩ := Res.bind_eq_ok.1 h
      obtain ⟨_, hc, h⟩ := Res.bind_eq_ok.1 h
      obtain ⟨_, hd, h⟩ := Res.bind_eq_ok.1 h
      cases h
      simp only [req_iff, decU32_iff, decSeed_iff] at ha hb hc hd
      obtain ⟨_, rfl, rfl, h1⟩ := ha
      obtain ⟨_, rfl, rfl⟩ := hb
      obtain ⟨_, rfl, rfl⟩ := hc
      obtain ⟨_, rfl, rfl⟩ := hd
      exact ⟨h1, rfl⟩
  · rintro ⟨hs, hr⟩
    rw [hr, Res.bind_ok]
    simp only [List.map_cons, List.map_nil]
    rw [FilterParams.ofFields, req_some, decSeed_jBytes hs, Res.bind_ok, req_some,
      decU32_jNat, Res.bind_ok, req_some, decU32_jNat, Res.bind_ok, req_some, decU32_jNat, Res.bind_ok]

/-- **C83 (keyword parameters).** The same for keyword parameters; `filter_params` is a nested document. -/
theorem C83_kv_params (j : Json) (p : KVParams) :
    KVParams.fromJson j = .ok p ↔
      (p.publicSeed.length = 32 ∧ p.dim < 2 ^ 64 ∧ p.m < 2 ^ 64 ∧ p.elemSize < 2 ^ 64 ∧ p.plaintextBits < 2 ^ 64) ∧
      ∃ fp, FilterParams.fromJson fp = .ok p.filterParams ∧
      Spec.Record ["dim", "m", "public_seed", "rhs", "elem_size", "plaintext_bits", "filter_params"]
        [jNat p.dim, jNat p.m, jBytes p.publicSeed, jMatrix p.rhs, jNat p.elemSize, jNat p.plaintextBits, fp] j := by
  unfold KVParams.fromJson
  constructor
  · intro h
    obtain ⟨fs, hf, h⟩ := Res.bind_eq_ok.1 h
    match fs, h with
    | [a, b, c, d, e, f, g], h =>
      unfold KVParams.ofFields at h
      obtain ⟨_, ha, h⟩ := Res.bind_eq_ok.1 h
      obtain ⟨_, hb, h⟩ := Res.bind_eq_ok.1 h
      obtain ⟨_, hc, h⟩ := Res.bind_eq_ok.1 h
      obtain ⟨_, hd, h⟩ := Res.bind_eq_ok.1 h
      obtain ⟨_, he, h⟩ := Res.bind_eq_ok.1 h
      obtain ⟨_, hf', h⟩ := Res.bind_eq_ok.1 h
      obtain ⟨_, hg, h⟩ := Res.bind_eq_ok.1 h
      cases h
      simp only [req_iff, decUsize_iff, decSeed_iff, decMatrix_iff] at ha hb hc hd he hf' hg
      obtain ⟨_, rfl, rfl, h1⟩ := ha
      obtain ⟨_, rfl, rfl, h2⟩ := hb
      obtain ⟨_, rfl, rfl, h3⟩ := hc
      obtain ⟨_, rfl, rfl⟩ := hd
      obtain ⟨_, rfl, rfl, h4⟩ := he
      obtain ⟨_, rfl, rfl, h5⟩ := hf'
      obtain ⟨fp, rfl, h6⟩ := hg
      refine ⟨⟨h3, h1, h2, h4, h5⟩, fp, h6, ?_⟩
      rw [← structFields_iff (by simp), hf]
      rfl
  · rintro ⟨⟨hs, h1, h2, h3, h4⟩, fp, hfp, hr⟩
    rw [(structFields_iff (by simp)).2 hr, Res.bind_ok]
    simp only [List.map_cons, List.map_nil]
    rw [KVParams.ofFields, req_some, decUsize_jNat h1, Res.bind_ok, req_some,
      decUsize_jNat h2, Res.bind_ok, req_some, decSeed_jBytes hs, Res.bind_ok, req_some, decList_jMatrix,
      Res.bind_ok, req_some, decUsize_jNat h3, Res.bind_ok, req_some, decUsize_jNat h4, Res.bind_ok, req_some, hfp,
      Res.bind_ok]

/-- **C83 (key-value pairs).** The same for the elements of a key-value file. -/
theorem C83_encoded_kv (j : Json) (k v : List Char) :
    decEncodedKV j = .ok (k, v) ↔ Spec.Record ["key", "value"] [.str k, .str v] j := by
  rw [← structFields_iff (by simp)]
  unfold decEncodedKV
  constructor
  · intro h
    obtain ⟨fs, hf, h⟩ := Res.bind_eq_ok.1 h
    rw [hf]
    match fs, h with
    | [a, b], h =>
      unfold encodedKVOfFields at h
      obtain ⟨_, ha, h⟩ := Res.bind_eq_ok.1 h
      obtain ⟨_, hb, h⟩ := Res.bind_eq_ok.1 h
      cases h
      simp only [req_iff, decString_iff] at ha hb
      obtain ⟨_, rfl, rfl⟩ := ha
      obtain ⟨_, rfl, rfl⟩ := hb
      rfl
  · intro hr
    rw [hr, Res.bind_ok]
    rfl

theorem decOption_iff {α : Type} {dec : Json → Res α} {o : Option α} {j : Json} :
    decOption dec j = .ok o ↔ (j = .null ∧ o = none) ∨ (j ≠ .null ∧ ∃ a, o = some a ∧ dec j = .ok a) := by
  unfold decOption
  split
  · simp [eq_comm]
  · rename_i hj
    have hj' : j ≠ .null := fun e => hj e
    simp only [hj', false_and, ne_eq, not_false_eq_true, true_and, false_or, Res.bind_eq_ok]
    constructor
    · rintro ⟨a, ha, h⟩
      cases h
      exact ⟨a, rfl, ha⟩
    · rintro ⟨a, rfl, ha⟩
      exact ⟨a, ha, rfl⟩

/-- **C83 (query parameters).** A document is accepted as query parameters `q` iff it holds the lists, sizes, the marker
`db` (null) and the flag `used` of `q`, each once, and the extra parameters of `q`; when these are absent from an object
or null, `q` has none. -/
theorem C83_query_params {EP : Type} (dec : Json → Res EP) (j : Json) (q : QueryParams EP) :
    QueryParams.fromJson dec j = .ok q ↔
      (q.elemSize < 2 ^ 64 ∧ q.plaintextBits < 2 ^ 64) ∧
      ((∃ x, (x = .null ∧ q.extraParams = none ∨ x ≠ .null ∧ ∃ a, q.extraParams = some a ∧ dec x = .ok a) ∧
        Spec.Record ["lhs", "rhs", "elem_size", "plaintext_bits", "db", "extra_params", "used"]
          [jU32s q.lhs, jU32s q.rhs, jNat q.elemSize, jNat q.plaintextBits, .null, x, .bool q.used] j) ∨
      (q.extraParams = none ∧ ∃ kvs, j = .obj kvs ∧ (∀ kv ∈ kvs, kv.1 ≠ "extra_params") ∧
        Spec.Record ["lhs", "rhs", "elem_size", "plaintext_bits", "db", "used"]
          [jU32s q.lhs, jU32s q.rhs, jNat q.elemSize, jNat q.plaintextBits, .null, .bool q.used] j)) := by
  unfold QueryParams.fromJson
  constructor
  · intro h
    obtain ⟨fs, hf, h⟩ := Res.bind_eq_ok.1 h
    match fs, h with
    | [a, b, c, d, e, f, g], h =>
      unfold QueryParams.ofFields at h
      obtain ⟨_, ha, h⟩ := Res.bind_eq_ok.1 h
      obtain ⟨_, hb, h⟩ := Res.bind_eq_ok.1 h
      obtain ⟨_, hc, h⟩ := Res.bind_eq_ok.1 h
      obtain ⟨_, hd, h⟩ := Res.bind_eq_ok.1 h
      obtain ⟨_, he, h⟩ := Res.bind_eq_ok.1 h
      obtain ⟨o, hf', h⟩ := Res.bind_eq_ok.1 h
      obtain ⟨_, hg, h⟩ := Res.bind_eq_ok.1 h
      cases h
      simp only [req_iff, decUsize_iff, decU32s_iff, decNull_iff, decBool_iff] at ha hb hc hd he hg
      obtain ⟨_, rfl, rfl⟩ := ha
      obtain ⟨_, rfl, rfl⟩ := hb
      obtain ⟨_, rfl, rfl, h1⟩ := hc
      obtain ⟨_, rfl, rfl, h2⟩ := hd
      obtain ⟨_, rfl, rfl⟩ := he
      obtain ⟨_, rfl, rfl⟩ := hg
      refine ⟨⟨h1, h2⟩, ?_⟩
      cases f with
      | some x =>
        left
        refine ⟨x, decOption_iff.1 hf', ?_⟩
        rw [← structFields_iff (by simp), hf]
        rfl
      | none =>
        right
        simp only [opt, Res.ok.injEq] at hf'
        subst hf'
        refine ⟨rfl, ?_⟩
        cases j with
        | arr js =>
          exfalso
          simp only [structFields] at hf
          split at hf
          · rw [Res.ok.injEq] at hf
            have := congrArg (fun l => none ∈ l) hf
            simp at this
          · cases hf
        | obj kvs =>
          refine ⟨kvs, rfl, ?_, ?_⟩
          · intro kv hkv e
            simp only [structFields] at hf
            split at hf
            · cases hf
            · simp only [List.map_cons, List.map_nil, Res.ok.injEq, List.cons.injEq, Option.map_eq_none_iff,
                List.find?_eq_none] at hf
              exact hf.2.2.2.2.2.1 kv hkv (by simpa using e)
          · rw [← structFields_iff (by simp)]
            simp only [structFields] at hf ⊢
            split at hf
            · cases hf
            · rename_i hany
              rw [if_neg (by
                intro h
                apply hany
                rw [List.any_eq_true] at h ⊢
                obtain ⟨n, hn, h⟩ := h
                refine ⟨n, ?_, h⟩
                simp only [List.mem_cons, List.not_mem_nil, or_false] at hn ⊢
                rcases hn with h | h | h | h | h | h <;> simp [h])]
              simp only [List.map_cons, List.map_nil, Res.ok.injEq, List.cons.injEq, and_true] at hf ⊢
              exact ⟨hf.1, hf.2.1, hf.2.2.1, hf.2.2.2.1, hf.2.2.2.2.1, hf.2.2.2.2.2.2⟩
        | _ => simp [structFields] at hf
  · rintro ⟨⟨h1, h2⟩, ⟨x, hx, hr⟩ | ⟨hn, kvs, rfl, hno, hr⟩⟩
    · rw [(structFields_iff (by simp)).2 hr, Res.bind_ok]
      simp only [List.map_cons, List.map_nil]
      rw [QueryParams.ofFields, req_some, decList_jU32s, Res.bind_ok, req_some,
        decList_jU32s, Res.bind_ok, req_some, decUsize_jNat h1, Res.bind_ok, req_some, decUsize_jNat h2,
        Res.bind_ok, req_some, (decNull_iff (u := ())).2 rfl, Res.bind_ok, opt, decOption_iff.2 hx, Res.bind_ok, req_some,
        decBool_iff.2 rfl, Res.bind_ok]
    · have hr' := (structFields_iff (by simp)).2 hr
      have : structFields ["lhs", "rhs", "elem_size", "plaintext_bits", "db", "extra_params", "used"] (.obj kvs) =
          .ok [some (jU32s q.lhs), some (jU32s q.rhs), some (jNat q.elemSize), some (jNat q.plaintextBits), some .null,
            none, some (.bool q.used)] := by
        simp only [structFields] at hr' ⊢
        have hfil : (kvs.filter fun kv => kv.1 = "extra_params") = [] := by
          rw [List.filter_eq_nil_iff]
          intro kv hkv
          simpa using hno kv hkv
        have hfind : (kvs.find? fun kv => kv.1 = "extra_params") = none := by
          rw [List.find?_eq_none]
          intro kv hkv
          simpa using hno kv hkv
        split at hr'
        · cases hr'
        · rename_i hany
          rw [if_neg (by
            intro h
            apply hany
            rw [List.any_eq_true] at h ⊢
            obtain ⟨n, hn, h⟩ := h
            refine ⟨n, ?_, h⟩
            have : n ≠ "extra_params" := by
              rintro rfl
              rw [hfil] at h
              simp at h
            simp only [List.mem_cons, List.not_mem_nil, or_false, this, false_or] at hn ⊢
            exact hn)]
          simp only [List.map_cons, List.map_nil, Res.ok.injEq, List.cons.injEq, and_true] at hr' ⊢
          rw [hfind]
          simp only [Option.map_none, true_and]
          exact hr'
      rw [this, Res.bind_ok, QueryParams.ofFields, req_some, decList_jU32s, Res.bind_ok, req_some,
        decList_jU32s, Res.bind_ok, req_some, decUsize_jNat h1, Res.bind_ok, req_some, decUsize_jNat h2,
        Res.bind_ok, req_some, (decNull_iff (u := ())).2 rfl, Res.bind_ok, opt, Res.bind_ok, req_some, decBool_iff.2 rfl, Res.bind_ok,
        ← hn]

/-! ## Everything else is an error value -/

/-- A result that is a value or a JSON error. -/
def OkOrJson {α : Type} (x : Res α) : Prop := (∃ a, x = .ok a) ∨ x = .err .json

theorem OkOrJson.bind {α β : Type} {x : Res α} {f : α → Res β} (h : OkOrJson x) (hf : ∀ a, OkOrJson (f a)) :
    OkOrJson (x >>= f) := by
  rcases h with ⟨a, rfl⟩ | rfl
  · exact hf a
  · exact .inr rfl

theorem OkOrJson.ok {α : Type} (a : α) : OkOrJson (.ok a) := .inl ⟨a, rfl⟩

theorem okOrJson_decNat (B : Nat) (j : Json) : OkOrJson (decNat B j) := by
  cases j with
  | num n =>
    simp only [decNat]
    split
    · exact .inl ⟨_, rfl⟩
    · exact .inr rfl
  | _ => exact .inr rfl

theorem okOrJson_mapRes {α β : Type} {f : α → Res β} (h : ∀ a, OkOrJson (f a)) (l : List α) :
    OkOrJson (mapRes f l) := by
  induction l with
  | nil => exact .inl ⟨[], rfl⟩
  | cons a l ih =>
    rw [mapRes_cons]
    exact (h a).bind fun _ => ih.bind fun _ => .ok _

theorem okOrJson_decList {α : Type} {dec : Json → Res α} (h : ∀ j, OkOrJson (dec j)) (j : Json) :
    OkOrJson (decList dec j) := by
  cases j with
  | arr l => exact okOrJson_mapRes h l
  | _ => exact .inr rfl

theorem okOrJson_decU32 (j : Json) : OkOrJson (decU32 j) := (okOrJson_decNat _ j).bind fun _ => .ok _

theorem okOrJson_decU8 (j : Json) : OkOrJson (decU8 j) := (okOrJson_decNat _ j).bind fun _ => .ok _

theorem okOrJson_decSeed (j : Json) : OkOrJson (decSeed j) :=
  (okOrJson_decList okOrJson_decU8 j).bind fun l => by
    split
    · exact .ok _
    · exact .inr rfl

theorem okOrJson_structFields (names : List String) (j : Json) : OkOrJson (structFields names j) := by
  cases j with
  | obj kvs =>
    simp only [structFields]
    split
    · exact .inr rfl
    · exact .ok _
  | arr js =>
    simp only [structFields]
    split
    · exact .ok _
    · exact .inr rfl
  | _ => exact .inr rfl

theorem okOrJson_req {α : Type} {dec : Json → Res α} (h : ∀ j, OkOrJson (dec j)) (o : Option Json) :
    OkOrJson (req dec o) := by
  cases o with
  | none => exact .inr rfl
  | some j => exact h j

theorem okOrJson_opt {α : Type} {dec : Json → Res α} (h : ∀ j, OkOrJson (dec j)) (o : Option Json) :
    OkOrJson (opt dec o) := by
  cases o with
  | none => exact .ok _
  | some j =>
    simp only [opt]
    unfold decOption
    split
    · exact .ok _
    · exact (h _).bind fun _ => .ok _

theorem okOrJson_decUsize (j : Json) : OkOrJson (decUsize j) := okOrJson_decNat _ j

theorem okOrJson_matrix (j : Json) : OkOrJson (decList (decList decU32) j) :=
  okOrJson_decList (okOrJson_decList okOrJson_decU32) j

theorem okOrJson_indexParams (j : Json) : OkOrJson (IndexParams.fromJson j) := by
  refine (okOrJson_structFields _ j).bind fun fs => ?_
  unfold IndexParams.ofFields
  split
  · exact (okOrJson_req okOrJson_decUsize _).bind fun _ => (okOrJson_req okOrJson_decUsize _).bind fun _ =>
      (okOrJson_req okOrJson_decSeed _).bind fun _ => (okOrJson_req okOrJson_matrix _).bind fun _ =>
      (okOrJson_req okOrJson_decUsize _).bind fun _ => (okOrJson_req okOrJson_decUsize _).bind fun _ => .ok _
  · exact .inr rfl

theorem okOrJson_filterParams (j : Json) : OkOrJson (FilterParams.fromJson j) := by
  refine (okOrJson_structFields _ j).bind fun fs => ?_
  unfold FilterParams.ofFields
  split
  · exact (okOrJson_req okOrJson_decSeed _).bind fun _ => (okOrJson_req okOrJson_decU32 _).bind fun _ =>
      (okOrJson_req okOrJson_decU32 _).bind fun _ => (okOrJson_req okOrJson_decU32 _).bind fun _ => .ok _
  · exact .inr rfl

theorem okOrJson_kvParams (j : Json) : OkOrJson (KVParams.fromJson j) := by
  refine (okOrJson_structFields _ j).bind fun fs => ?_
  unfold KVParams.ofFields
  split
  · exact (okOrJson_req okOrJson_decUsize _).bind fun _ => (okOrJson_req okOrJson_decUsize _).bind fun _ =>
      (okOrJson_req okOrJson_decSeed _).bind fun _ => (okOrJson_req okOrJson_matrix _).bind fun _ =>
      (okOrJson_req okOrJson_decUsize _).bind fun _ => (okOrJson_req okOrJson_decUsize _).bind fun _ =>
      (okOrJson_req okOrJson_filterParams _).bind fun _ => .ok _
  · exact .inr rfl

theorem okOrJson_decNull (j : Json) : OkOrJson (decNull j) := by
  cases j <;> first | exact .ok _ | exact .inr rfl

theorem okOrJson_decBool (j : Json) : OkOrJson (decBool j) := by
  cases j <;> first | exact .ok _ | exact .inr rfl

theorem okOrJson_queryParams {EP : Type} {dec : Json → Res EP} (h : ∀ j, OkOrJson (dec j)) (j : Json) :
    OkOrJson (QueryParams.fromJson dec j) := by
  refine (okOrJson_structFields _ j).bind fun fs => ?_
  unfold QueryParams.ofFields
  split
  · exact (okOrJson_req (okOrJson_decList okOrJson_decU32) _).bind fun _ =>
      (okOrJson_req (okOrJson_decList okOrJson_decU32) _).bind fun _ =>
      (okOrJson_req okOrJson_decUsize _).bind fun _ => (okOrJson_req okOrJson_decUsize _).bind fun _ =>
      (okOrJson_req okOrJson_decNull _).bind fun _ => (okOrJson_opt h _).bind fun _ =>
      (okOrJson_req okOrJson_decBool _).bind fun _ => .ok _
  · exact .inr rfl

/-- **C83 (no panic).** Every document is accepted or rejected with an error value. -/
theorem C83_total (j : Json) :
    (∀ e, IndexParams.fromJson j ≠ .ok e) → IndexParams.fromJson j = .err .json := by
  intro h
  rcases okOrJson_indexParams j with ⟨a, ha⟩ | h'
  · exact absurd ha (h a)
  · exact h'

/-- **C83 (no panic, the other types).** -/
theorem C83_total_others (j : Json) :
    ((∀ p, FilterParams.fromJson j ≠ .ok p) → FilterParams.fromJson j = .err .json) ∧
    ((∀ p, KVParams.fromJson j ≠ .ok p) → KVParams.fromJson j = .err .json) ∧
    ((∀ q, QueryParams.fromJson emptyAuxFromJson j ≠ .ok q) → QueryParams.fromJson emptyAuxFromJson j = .err .json) ∧
    ((∀ q, QueryParams.fromJson FilterParams.fromJson j ≠ .ok q) →
      QueryParams.fromJson FilterParams.fromJson j = .err .json) := by
  have gen : ∀ {α : Type} {x : Res α}, OkOrJson x → (∀ a, x ≠ .ok a) → x = .err .json := by
    intro α x hx h
    rcases hx with ⟨a, ha⟩ | h'
    · exact absurd ha (h a)
    · exact h'
  exact ⟨gen (okOrJson_filterParams j), gen (okOrJson_kvParams j),
    gen (okOrJson_queryParams (fun j => (okOrJson_structFields [] j).bind fun _ => .ok _) j),
    gen (okOrJson_queryParams okOrJson_filterParams j)⟩

/-- **C83 (load).** `IndexParams::load` returns parameters iff the file can be read and holds a document with exactly
those parameters; otherwise it returns an error value. -/
theorem C83_load (readable : Bool) (fs : FS) (path : Path) :
    (∀ p, IndexParams.load readable fs path = .ok p ↔ readable = true ∧
      ∃ j, fs path = some (.json j) ∧
        (p.publicSeed.length = 32 ∧ p.dim < 2 ^ 64 ∧ p.m < 2 ^ 64 ∧ p.elemSize < 2 ^ 64 ∧ p.plaintextBits < 2 ^ 64) ∧
        Spec.Record ["dim", "m", "public_seed", "rhs", "elem_size", "plaintext_bits"]
          [jNat p.dim, jNat p.m, jBytes p.publicSeed, jMatrix p.rhs, jNat p.elemSize, jNat p.plaintextBits] j) ∧
    ((∃ p, IndexParams.load readable fs path = .ok p) ∨ IndexParams.load readable fs path = .err .io ∨
      IndexParams.load readable fs path = .err .json) := by
  unfold IndexParams.load readJson
  cases readable with
  | false => simp
  | true =>
    match hc : fs path with
    | none => simp
    | some (.raw _) => simp
    | some (.json j) =>
      simp only [Res.bind_ok, Option.some.injEq, Content.json.injEq, exists_eq_left', true_and]
      refine ⟨fun p => C83_index_params j p, ?_⟩
      rcases okOrJson_indexParams j with h | h
      · exact .inl h
      · exact .inr (.inr h)

theorem okOrJson_decString (j : Json) : OkOrJson (decString j) := by
  cases j <;> first | exact .ok _ | exact .inr rfl

/-- **C55 (keyword, every document).** `KVShard::from_json_file` on an arbitrary file: if the file is readable and holds
an array whose elements are, one by one, records with the string fields `key` and `value` (objects with both fields
exactly once, in any order and with other fields allowed, or two-element arrays), the result is the shard built from those
keywords and values; in every other case it panics. -/
theorem C55_kv_documents (prof : Profile) (prg : Prg) (publicSeed : List U8) (sha : Sha)
    (utf8 : List Char → List U8) (segExp cap0 : Nat) (fp0 : Nat → Nat → U32) (filterSeed : List U8)
    (fs : FS) (path : Path) (readable : Bool) (lweDim m elemSize plaintextBits : Nat) :
    (∀ (kvs : List (List Char × List Char)) (docs : List Json), readable = true →
      fs path = some (.json (.arr docs)) →
      List.Forall₂ (fun d kv => Spec.Record ["key", "value"] [.str kv.1, .str kv.2] d) docs kvs →
      KVShard.fromJsonFile prof prg publicSeed sha utf8 segExp cap0 fp0 filterSeed readable fs path lweDim m
          elemSize plaintextBits =
        KVShard.fromBase64Strings prof sha prg publicSeed segExp cap0 fp0 filterSeed
          (kvs.map fun kv => utf8 kv.1) (kvs.map fun kv => kv.2) lweDim m elemSize plaintextBits) ∧
    ((¬ ∃ (kvs : List (List Char × List Char)) (docs : List Json), readable = true ∧
        fs path = some (.json (.arr docs)) ∧
        List.Forall₂ (fun d kv => Spec.Record ["key", "value"] [.str kv.1, .str kv.2] d) docs kvs) →
      KVShard.fromJsonFile prof prg publicSeed sha utf8 segExp cap0 fp0 filterSeed readable fs path lweDim m
          elemSize plaintextBits = .panic) := by
  have hfor : ∀ (docs : List Json) (kvs : List (List Char × List Char)),
      List.Forall₂ (fun d kv => Spec.Record ["key", "value"] [.str kv.1, .str kv.2] d) docs kvs ↔
        mapRes decEncodedKV docs = .ok kvs := by
    intro docs
    induction docs with
    | nil =>
      intro kvs
      cases kvs with
      | nil => exact ⟨fun _ => rfl, fun _ => .nil⟩
      | cons kv kvs => exact ⟨fun h => (nomatch h), fun h => (nomatch h)⟩
    | cons d ds ih =>
      intro kvs
      rw [mapRes_eq_ok]
      cases kvs with
      | nil => exact ⟨fun h => (nomatch h), fun h => (nomatch h)⟩
      | cons kv kvs =>
        rw [List.forall₂_cons, ih, mapRes_eq_ok, List.map_cons, List.map_cons, List.cons.injEq,
          ← C83_encoded_kv]
  constructor
  · intro kvs docs hr hdoc hall
    rw [hfor] at hall
    subst hr
    unfold KVShard.fromJsonFile readJson
    rw [hdoc]
    simp only [Res.bind_ok, decList, hall, Res.unwrap_ok]
  · intro hno
    have key : ∀ kvs, (readJson readable fs path >>= decList decEncodedKV) ≠ .ok kvs := by
      intro kvs h
      apply hno
      obtain ⟨j, hj, h⟩ := Res.bind_eq_ok.1 h
      unfold readJson at hj
      cases readable with
      | false => cases hj
      | true =>
        match hc : fs path with
        | none => rw [hc] at hj; cases hj
        | some (.raw _) => rw [hc] at hj; cases hj
        | some (.json j') =>
          rw [hc] at hj
          cases hj
          cases j with
          | arr docs => exact ⟨kvs, docs, rfl, rfl, (hfor docs kvs).2 h⟩
          | _ => cases h
    unfold KVShard.fromJsonFile
    have hdec : ∀ j, OkOrJson (decEncodedKV j) := by
      intro j
      refine (okOrJson_structFields _ j).bind fun l => ?_
      unfold encodedKVOfFields
      split
      · exact (okOrJson_req okOrJson_decString _).bind fun _ => (okOrJson_req okOrJson_decString _).bind fun _ => .ok _
      · exact .inr rfl
    have herr : ∃ e, (readJson readable fs path >>= decList decEncodedKV) = .err e := by
      match hr : readJson readable fs path with
      | .ok j =>
        rw [hr] at key
        rcases okOrJson_decList hdec j with ⟨kvs, h⟩ | h
        · exact absurd h (key kvs)
        · exact ⟨_, h⟩
      | .err e => exact ⟨e, rfl⟩
      | .panic | .diverge =>
        unfold readJson at hr
        split at hr <;> cases hr
    obtain ⟨e, he⟩ := herr
    rw [he]
    rfl

/-- C55: a document mixing both forms, with an extra field, loads; one with a missing value does not. -/
example : ∃ kvs : List (List Char × List Char),
    List.Forall₂ (fun d kv => Spec.Record ["key", "value"] [.str kv.1, .str kv.2] d)
      [.obj [("value", .str "AQI=".toList), ("note", .null), ("key", .str "a".toList)],
        .arr [.str "b".toList, .str "Aw==".toList]] kvs ∧ kvs.length = 2 :=
  ⟨[("a".toList, "AQI=".toList), ("b".toList, "Aw==".toList)],
    .cons (.inr ⟨_, rfl, by simp⟩) (.cons (.inl rfl) .nil), rfl⟩

/-! ## Non-vacuity -/

/-- An object with the fields in another order and an unknown field loads; a repeated field is an error, and so is an
array with one element too many. -/
example : (∃ p, FilterParams.fromJson (.obj [("segment_length", .num 4), ("x", .null), ("segment_count_length", .num 8),
      ("seed", .arr (List.replicate 32 (.num 7))), ("segment_length_mask", .num 3)]) = .ok p) ∧
    FilterParams.fromJson (.obj [("segment_length", .num 4), ("segment_length", .num 4), ("segment_count_length", .num 8),
      ("seed", .arr (List.replicate 32 (.num 7))), ("segment_length_mask", .num 3)]) = .err .json ∧
    (∃ p, FilterParams.fromJson (.arr [.arr (List.replicate 32 (.num 7)), .num 4, .num 3, .num 8]) = .ok p) ∧
    FilterParams.fromJson (.arr [.arr (List.replicate 32 (.num 7)), .num 4, .num 3, .num 8, .null]) = .err .json :=
  ⟨⟨_, rfl⟩, rfl, ⟨_, rfl⟩, rfl⟩

end Chalamet
