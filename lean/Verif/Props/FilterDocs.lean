import Verif.Model.FilterSerde
import Verif.Props.Documents
import Verif.Props.Xor
import Verif.Props.BFuse

/-!
# C84: filters written with serde and read back

The filter types of `bff-modp` derive `Serialize` and `Deserialize` (feature `serde`, on by default). A filter is read back
from what serde writes; a document is accepted as a filter exactly when it holds the fields of that filter; nothing
relates the sizes of the fields to each other (C85).
-/

namespace Chalamet

theorem decWord_iff {w : Nat} {x : BitVec w} {j : Json} : decWord w j = .ok x ↔ j = jNat x.toNat := by
  constructor
  · intro h
    unfold decWord at h
    obtain ⟨n, hn, h⟩ := Res.bind_eq_ok.1 h
    cases h
    obtain ⟨rfl, hb⟩ := decNat_iff.1 hn
    rw [BitVec.toNat_ofNat, Nat.mod_eq_of_lt hb]
  · rintro rfl
    unfold decWord
    rw [decNat_jNat x.isLt, Res.bind_ok, BitVec.ofNat_toNat, BitVec.setWidth_eq]

theorem decWords_iff {w : Nat} {l : List (BitVec w)} {j : Json} : decList (decWord w) j = .ok l ↔ j = jWords l :=
  decList_iff fun _ _ => decWord_iff

theorem okOrJson_decWord (w : Nat) (j : Json) : OkOrJson (decWord w j) := (okOrJson_decNat _ j).bind fun _ => .ok _

/-- What serde writes is a record. -/
theorem record_self {names : List String} {vals : List Json} (hl : names.length = vals.length) (hn : names.Nodup) :
    Spec.Record names vals (.obj (names.zip vals)) :=
  (structFields_iff hl).1 (structFields_obj_self hl hn)

/-! ## Which documents are filters -/

/-- **C84 (binary fuse).** A document is accepted as the binary fuse filter `f` (fingerprints of `w` bits) iff it holds the five fields of
`f`. -/
theorem C84_binary_fuse (w : Nat) (j : Json) (f : BinaryFuse w) :
    BinaryFuse.fromJson w j = .ok f ↔
      Spec.Record ["seed", "segment_length", "segment_length_mask", "segment_count_length", "fingerprints"]
        [jNat f.seed.toNat, jNat f.geom.segmentLength.toNat, jNat f.geom.segmentLengthMask.toNat,
          jNat f.geom.segmentCountLength.toNat, .arr (f.fingerprints.map fun x => jNat x.toNat)] j := by
  rw [← structFields_iff (by simp)]
  unfold BinaryFuse.fromJson
  constructor
  · intro h
    obtain ⟨fs, hf, h⟩ := Res.bind_eq_ok.1 h
    rw [hf]
    match fs, h with
    | [a, b, c, d, e], h =>
      unfold BinaryFuse.ofFields at h
      obtain ⟨_, ha, h⟩ := Res.bind_eq_ok.1 h
      obtain ⟨_, hb, h⟩ := Res.bind_eq_ok.1 h
      obtain ⟨_, hc, h⟩ := Res.bind_eq_ok.1 h
      obtain ⟨_, hd, h⟩ := Res.bind_eq_ok.1 h
      obtain ⟨_, he, h⟩ := Res.bind_eq_ok.1 h
      cases h
      simp only [req_iff, decU32_iff, decWord_iff, decWords_iff] at ha hb hc hd he
      obtain ⟨_, rfl, rfl⟩ := ha
      obtain ⟨_, rfl, rfl⟩ := hb
      obtain ⟨_, rfl, rfl⟩ := hc
      obtain ⟨_, rfl, rfl⟩ := hd
      obtain ⟨_, rfl, rfl⟩ := he
      rfl
  · intro hr
    rw [hr, Res.bind_ok]
    simp only [List.map_cons, List.map_nil]
    rw [BinaryFuse.ofFields, req_some, decWord_iff.2 rfl, Res.bind_ok, req_some,
      decU32_jNat, Res.bind_ok, req_some, decU32_jNat, Res.bind_ok, req_some, decU32_jNat, Res.bind_ok, req_some,
      show decList (decWord w) (.arr (f.fingerprints.map fun x => jNat x.toNat)) = .ok f.fingerprints from
        decWords_iff.2 rfl, Res.bind_ok]

/-- **C84 (binary fuse modulo p).** -/
theorem C84_binary_fuse_p (j : Json) (f : BinaryFuseP32) :
    BinaryFuseP32.fromJson j = .ok f ↔ f.seed.length = 32 ∧
      Spec.Record ["seed", "segment_length", "segment_length_mask", "segment_count_length", "fingerprints", "ptxt_mod"]
        [.arr (f.seed.map fun x => jNat x.toNat), jNat f.geom.segmentLength.toNat, jNat f.geom.segmentLengthMask.toNat,
          jNat f.geom.segmentCountLength.toNat, .arr (f.fingerprints.map fun x => jNat x.toNat), jNat f.ptxtMod.toNat] j := by
  rw [← structFields_iff (by simp)]
  unfold BinaryFuseP32.fromJson
  constructor
  · intro h
    obtain ⟨fs, hf, h⟩ := Res.bind_eq_ok.1 h
    rw [hf]
    match fs, h with
    | [a, b, c, d, e, p], h =>
      unfold BinaryFuseP32.ofFields at h
      obtain ⟨_, ha, h⟩ := Res.bind_eq_ok.1 h
      obtain ⟨_, hb, h⟩ := Res.bind_eq_ok.1 h
      obtain ⟨_, hc, h⟩ := Res.bind_eq_ok.1 h
      obtain ⟨_, hd, h⟩ := Res.bind_eq_ok.1 h
      obtain ⟨_, he, h⟩ := Res.bind_eq_ok.1 h
      obtain ⟨_, hp, h⟩ := Res.bind_eq_ok.1 h
      cases h
      simp only [req_iff, decU32_iff, decSeed_iff, decWord_iff, decU32s_iff] at ha hb hc hd he hp
      obtain ⟨_, rfl, rfl, h1⟩ := ha
      obtain ⟨_, rfl, rfl⟩ := hb
      obtain ⟨_, rfl, rfl⟩ := hc
      obtain ⟨_, rfl, rfl⟩ := hd
      obtain ⟨_, rfl, rfl⟩ := he
      obtain ⟨_, rfl, rfl⟩ := hp
      exact ⟨h1, rfl⟩
  · rintro ⟨h1, hr⟩
    rw [hr, Res.bind_ok]
    simp only [List.map_cons, List.map_nil]
    rw [BinaryFuseP32.ofFields, req_some, show decSeed (.arr (f.seed.map fun x => jNat x.toNat)) = .ok f.seed from
      decSeed_iff.2 ⟨rfl, h1⟩, Res.bind_ok, req_some,
      decU32_jNat, Res.bind_ok, req_some, decU32_jNat, Res.bind_ok, req_some, decU32_jNat, Res.bind_ok, req_some,
      show decList decU32 (.arr (f.fingerprints.map fun x => jNat x.toNat)) = .ok f.fingerprints from
        decU32s_iff.2 rfl, Res.bind_ok, req_some, decWord_iff.2 rfl, Res.bind_ok]

/-- **C84 (fuse).** -/
theorem C84_fuse (w : Nat) (j : Json) (f : Fuse w) :
    Fuse.fromJson w j = .ok f ↔ f.segmentLength < 2 ^ 64 ∧
      Spec.Record ["seed", "segment_length", "fingerprints"]
        [jNat f.seed.toNat, jNat f.segmentLength, .arr (f.fingerprints.map fun x => jNat x.toNat)] j := by
  rw [← structFields_iff (by simp)]
  unfold Fuse.fromJson
  constructor
  · intro h
    obtain ⟨fs, hf, h⟩ := Res.bind_eq_ok.1 h
    rw [hf]
    match fs, h with
    | [a, b, c], h =>
      unfold Fuse.ofFields at h
      obtain ⟨_, ha, h⟩ := Res.bind_eq_ok.1 h
      obtain ⟨_, hb, h⟩ := Res.bind_eq_ok.1 h
      obtain ⟨_, hc, h⟩ := Res.bind_eq_ok.1 h
      cases h
      simp only [req_iff, decUsize_iff, decWord_iff, decWords_iff] at ha hb hc
      obtain ⟨_, rfl, rfl⟩ := ha
      obtain ⟨_, rfl, rfl, h1⟩ := hb
      obtain ⟨_, rfl, rfl⟩ := hc
      exact ⟨h1, rfl⟩
  · rintro ⟨h1, hr⟩
    rw [hr, Res.bind_ok]
    simp only [List.map_cons, List.map_nil]
    rw [Fuse.ofFields, req_some, decWord_iff.2 rfl, Res.bind_ok, req_some, decUsize_jNat h1, Res.bind_ok, req_some,
      show decList (decWord w) (.arr (f.fingerprints.map fun x => jNat x.toNat)) = .ok f.fingerprints from
        decWords_iff.2 rfl, Res.bind_ok]

/-- **C84 (xor).** -/
theorem C84_xor (w : Nat) (j : Json) (f : Xor w) :
    Xor.fromJson w j = .ok f ↔ f.blockLength < 2 ^ 64 ∧
      Spec.Record ["seed", "block_length", "fingerprints"]
        [jNat f.seed.toNat, jNat f.blockLength, .arr (f.fingerprints.map fun x => jNat x.toNat)] j := by
  rw [← structFields_iff (by simp)]
  unfold Xor.fromJson
  constructor
  · intro h
    obtain ⟨fs, hf, h⟩ := Res.bind_eq_ok.1 h
    rw [hf]
    match fs, h with
    | [a, b, c], h =>
      unfold Xor.ofFields at h
      obtain ⟨_, ha, h⟩ := Res.bind_eq_ok.1 h
      obtain ⟨_, hb, h⟩ := Res.bind_eq_ok.1 h
      obtain ⟨_, hc, h⟩ := Res.bind_eq_ok.1 h
      cases h
      simp only [req_iff, decUsize_iff, decWord_iff, decWords_iff] at ha hb hc
      obtain ⟨_, rfl, rfl⟩ := ha
      obtain ⟨_, rfl, rfl, h1⟩ := hb
      obtain ⟨_, rfl, rfl⟩ := hc
      exact ⟨h1, rfl⟩
  · rintro ⟨h1, hr⟩
    rw [hr, Res.bind_ok]
    simp only [List.map_cons, List.map_nil]
    rw [Xor.ofFields, req_some, decWord_iff.2 rfl, Res.bind_ok, req_some, decUsize_jNat h1, Res.bind_ok, req_some,
      show decList (decWord w) (.arr (f.fingerprints.map fun x => jNat x.toNat)) = .ok f.fingerprints from
        decWords_iff.2 rfl, Res.bind_ok]

/-- **C84 (proxy).** A document is accepted as a proxy of the filter `f` iff it holds a document of `f` and the two markers
(null), which do not identify the key type or the hasher: a proxy can be read back with other types. -/
theorem C84_proxy {F : Type} (dec : Json → Res F) (j : Json) (f : F) :
    HashProxy.fromJson dec j = .ok f ↔
      ∃ x, dec x = .ok f ∧ Spec.Record ["filter", "_hasher", "_type"] [x, .null, .null] j := by
  unfold HashProxy.fromJson
  constructor
  · intro h
    obtain ⟨fs, hf, h⟩ := Res.bind_eq_ok.1 h
    match fs, h with
    | [a, b, c], h =>
      unfold HashProxy.ofFields at h
      obtain ⟨_, ha, h⟩ := Res.bind_eq_ok.1 h
      obtain ⟨_, hb, h⟩ := Res.bind_eq_ok.1 h
      obtain ⟨_, hc, h⟩ := Res.bind_eq_ok.1 h
      cases h
      simp only [req_iff, decNull_iff] at ha hb hc
      obtain ⟨x, rfl, h1⟩ := ha
      obtain ⟨_, rfl, rfl⟩ := hb
      obtain ⟨_, rfl, rfl⟩ := hc
      refine ⟨x, h1, ?_⟩
      rw [← structFields_iff (by simp), hf]
      rfl
  · rintro ⟨x, hx, hr⟩
    rw [(structFields_iff (by simp)).2 hr, Res.bind_ok]
    simp only [List.map_cons, List.map_nil]
    rw [HashProxy.ofFields, req_some, hx, Res.bind_ok]
    rfl

/-- **C84 (no panic).** Loading a filter returns a filter or an error value for every document. -/
theorem C84_total (w : Nat) (j : Json) :
    ((∃ f, BinaryFuse.fromJson w j = .ok f) ∨ BinaryFuse.fromJson w j = .err .json) ∧
    ((∃ f, BinaryFuseP32.fromJson j = .ok f) ∨ BinaryFuseP32.fromJson j = .err .json) ∧
    ((∃ f, Fuse.fromJson w j = .ok f) ∨ Fuse.fromJson w j = .err .json) ∧
    ((∃ f, Xor.fromJson w j = .ok f) ∨ Xor.fromJson w j = .err .json) ∧
    ((∃ f, HashProxy.fromJson (Xor.fromJson w) j = .ok f) ∨ HashProxy.fromJson (Xor.fromJson w) j = .err .json) := by
  have hx : ∀ j, OkOrJson (Xor.fromJson w j) := by
    intro j
    refine (okOrJson_structFields _ j).bind fun fs => ?_
    unfold Xor.ofFields
    split
    · exact (okOrJson_req (okOrJson_decWord _) _).bind fun _ => (okOrJson_req okOrJson_decUsize _).bind fun _ =>
        (okOrJson_req (okOrJson_decList (okOrJson_decWord _)) _).bind fun _ => .ok _
    · exact .inr rfl
  refine ⟨?_, ?_, ?_, hx j, ?_⟩
  · refine (okOrJson_structFields _ j).bind fun fs => ?_
    unfold BinaryFuse.ofFields
    split
    · exact (okOrJson_req (okOrJson_decWord _) _).bind fun _ => (okOrJson_req okOrJson_decU32 _).bind fun _ =>
        (okOrJson_req okOrJson_decU32 _).bind fun _ => (okOrJson_req okOrJson_decU32 _).bind fun _ =>
        (okOrJson_req (okOrJson_decList (okOrJson_decWord _)) _).bind fun _ => .ok _
    · exact .inr rfl
  · refine (okOrJson_structFields _ j).bind fun fs => ?_
    unfold BinaryFuseP32.ofFields
    split
    · exact (okOrJson_req okOrJson_decSeed _).bind fun _ => (okOrJson_req okOrJson_decU32 _).bind fun _ =>
        (okOrJson_req okOrJson_decU32 _).bind fun _ => (okOrJson_req okOrJson_decU32 _).bind fun _ =>
        (okOrJson_req (okOrJson_decList okOrJson_decU32) _).bind fun _ =>
        (okOrJson_req (okOrJson_decWord _) _).bind fun _ => .ok _
    · exact .inr rfl
  · refine (okOrJson_structFields _ j).bind fun fs => ?_
    unfold Fuse.ofFields
    split
    · exact (okOrJson_req (okOrJson_decWord _) _).bind fun _ => (okOrJson_req okOrJson_decUsize _).bind fun _ =>
        (okOrJson_req (okOrJson_decList (okOrJson_decWord _)) _).bind fun _ => .ok _
    · exact .inr rfl
  · refine (okOrJson_structFields _ j).bind fun fs => ?_
    unfold HashProxy.ofFields
    split
    · exact (okOrJson_req hx _).bind fun _ => (okOrJson_req okOrJson_decNull _).bind fun _ =>
        (okOrJson_req okOrJson_decNull _).bind fun _ => .ok _
    · exact .inr rfl

/-! ## Round trip -/

/-- **C84 (round trip).** What serde writes for a filter is read back as the same filter, for every filter. -/
theorem C84_round_trip (w : Nat) :
    (∀ f : BinaryFuse w, BinaryFuse.fromJson w f.toJson = .ok f) ∧
    (∀ f : BinaryFuseP32, f.seed.length = 32 → BinaryFuseP32.fromJson f.toJson = .ok f) ∧
    (∀ f : Fuse w, f.segmentLength < 2 ^ 64 → Fuse.fromJson w f.toJson = .ok f) ∧
    (∀ f : Xor w, f.blockLength < 2 ^ 64 → Xor.fromJson w f.toJson = .ok f) ∧
    (∀ f : Xor w, f.blockLength < 2 ^ 64 →
      HashProxy.fromJson (Xor.fromJson w) (HashProxy.toJson Xor.toJson f) = .ok f) := by
  have hx : ∀ f : Xor w, f.blockLength < 2 ^ 64 → Xor.fromJson w f.toJson = .ok f := fun f h =>
    (C84_xor w _ f).2 ⟨h, record_self (names := ["seed", "block_length", "fingerprints"]) (by simp) (by simp)⟩
  refine ⟨fun f => ?_, fun f h => ?_, fun f h => ?_, hx, fun f h => ?_⟩
  · exact (C84_binary_fuse w _ f).2 (record_self
      (names := ["seed", "segment_length", "segment_length_mask", "segment_count_length", "fingerprints"])
      (by simp) (by simp))
  · exact (C84_binary_fuse_p _ f).2 ⟨h, record_self
      (names := ["seed", "segment_length", "segment_length_mask", "segment_count_length", "fingerprints", "ptxt_mod"])
      (by simp) (by simp)⟩
  · exact (C84_fuse w _ f).2 ⟨h, record_self (names := ["seed", "segment_length", "fingerprints"]) (by simp) (by simp)⟩
  · exact (C84_proxy _ _ f).2 ⟨_, hx f h, record_self (names := ["filter", "_hasher", "_type"]) (by simp) (by simp)⟩

end Chalamet
