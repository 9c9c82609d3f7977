import Verif.Props.Serde

/-!
# C98: what the written files hold

`write_to_file` writes the matrix of the database to one file and the seed and right-hand side of the parameters to another.
-/

namespace Chalamet
open Spec

/-- The two files hold exactly the matrix and the pair of seed and right-hand side, under the names `lhs_seed` and `rhs`. -/
def Spec.FilesHold (fs : FS) (dbPath paramsPath : Path) (entries : List (List U32)) (seed : List U8) (rhs : List (List U32)) : Prop :=
  fs dbPath = some (.json (jMatrix entries)) ∧
  ∃ doc, fs paramsPath = some (.json doc) ∧ Spec.Record ["lhs_seed", "rhs"] [jBytes seed, jMatrix rhs] doc ∧
    ∀ name v, (∃ kvs, doc = .obj kvs ∧ (name, v) ∈ kvs) → name = "lhs_seed" ∨ name = "rhs"

theorem writeTwo_ok {ev₁ ev₂ : WriteEvent} {fs fs' : FS} {p₁ p₂ : Path} {d₁ d₂ : Json} (hp : p₁ ≠ p₂)
    (h : writeTwo ev₁ ev₂ fs p₁ p₂ d₁ d₂ = (fs', .ok ())) :
    fs' p₁ = some (.json d₁) ∧ fs' p₂ = some (.json d₂) ∧ ∀ p, p ≠ p₁ → p ≠ p₂ → fs' p = fs p := by
  unfold writeTwo at h
  cases ev₁ <;> simp only [writeJson] at h
  · cases h
  · cases h
  · cases ev₂ <;> simp only at h
    · cases h
    · cases h
    · cases h
      refine ⟨by simp [FS.put, hp], by simp [FS.put], ?_⟩
      intro p h1 h2
      simp [FS.put, h1, h2]

theorem params_record (seed : List U8) (rhs : List (List U32)) :
    Spec.Record ["lhs_seed", "rhs"] [jBytes seed, jMatrix rhs] (paramsFileJson seed rhs) ∧
    ∀ name v, (∃ kvs, paramsFileJson seed rhs = .obj kvs ∧ (name, v) ∈ kvs) → name = "lhs_seed" ∨ name = "rhs" := by
  refine ⟨record_self (names := ["lhs_seed", "rhs"]) (vals := [jBytes seed, jMatrix rhs]) rfl (by simp), ?_⟩
  rintro name v ⟨kvs, e, hm⟩
  simp only [paramsFileJson, Json.obj.injEq] at e
  subst e
  simp only [List.mem_cons, Prod.mk.injEq, List.not_mem_nil, or_false] at hm
  rcases hm with ⟨h, -⟩ | ⟨h, -⟩
  · exact Or.inl h
  · exact Or.inr h

/-- **C98 (contents).** After a successful `write_to_file` of a shard of either kind, the files hold its matrix, its seed and its
right-hand side, and nothing else; no other file changed. -/
theorem C98_contents (s : Shard) (k : KVShard) (fs fs' : FS) (dbPath paramsPath : Path) (hp : dbPath ≠ paramsPath)
    (ev₁ ev₂ : WriteEvent) :
    (s.writeToFile ev₁ ev₂ fs dbPath paramsPath = (fs', .ok ()) →
      FilesHold fs' dbPath paramsPath s.db.entries s.baseParams.publicSeed s.baseParams.rhs ∧
      ∀ p, p ≠ dbPath → p ≠ paramsPath → fs' p = fs p) ∧
    (k.writeToFile ev₁ ev₂ fs dbPath paramsPath = (fs', .ok ()) →
      FilesHold fs' dbPath paramsPath k.db.entries k.baseParams.publicSeed k.baseParams.rhs ∧
      ∀ p, p ≠ dbPath → p ≠ paramsPath → fs' p = fs p) := by
  constructor <;> intro h <;> obtain ⟨h1, h2, h3⟩ := writeTwo_ok hp h
  · exact ⟨⟨h1, _, h2, (params_record _ _).1, (params_record _ _).2⟩, h3⟩
  · exact ⟨⟨h1, _, h2, (params_record _ _).1, (params_record _ _).2⟩, h3⟩

theorem jMatrix_inj {a b : List (List U32)} (h : jMatrix a = jMatrix b) : a = b := by
  have h1 := decList_jMatrix a
  rw [h, decList_jMatrix] at h1
  cases h1
  rfl

theorem jBytes_inj {a b : List U8} (h : jBytes a = jBytes b) : a = b := by
  simp only [jBytes, Json.arr.injEq] at h
  refine List.map_injective_iff.2 ?_ h
  intro x y e
  have h1 := decU8_jNat x
  simp only at e
  rw [e, decU8_jNat] at h1
  cases h1
  rfl

/-- **C98 (recovery).** What the files hold is determined by them: the matrix, the seed and the right-hand side can be recovered. -/
theorem C98_recovery (fs : FS) (dbPath paramsPath : Path) (e e' : List (List U32)) (seed seed' : List U8) (rhs rhs' : List (List U32))
    (h : FilesHold fs dbPath paramsPath e seed rhs) (h' : FilesHold fs dbPath paramsPath e' seed' rhs') :
    e = e' ∧ seed = seed' ∧ rhs = rhs' := by
  obtain ⟨h1, d, h2, h3, -⟩ := h
  obtain ⟨h1', d', h2', h3', -⟩ := h'
  rw [h1] at h1'
  rw [h2] at h2'
  simp only [Option.some.injEq, Content.json.injEq] at h1' h2'
  subst h2'
  have h4 := (structFields_iff (names := ["lhs_seed", "rhs"]) rfl).2 h3
  rw [(structFields_iff (names := ["lhs_seed", "rhs"]) rfl).2 h3'] at h4
  simp only [List.map_cons, List.map_nil, Res.ok.injEq, List.cons.injEq, Option.some.injEq, and_true] at h4
  exact ⟨jMatrix_inj h1', (jBytes_inj h4.1).symm, (jMatrix_inj h4.2).symm⟩

/-- **C98 (what is lost).** The element size is in neither file: whenever two shards are built from the same records with element
sizes that need the same number of digits, `write_to_file` writes the same two files, although clients of the two shards decode
records of different lengths. -/
theorem C98_lost (prof : Profile) (prg : Prg) (seed : List U8) (strs : List (List Char)) (n m T T' b : Nat) (s s' : Shard)
    (hb : b ≤ 32) (hw : width T b = width T' b)
    (h : Shard.fromBase64Strings prof prg seed strs n m T b = .ok s)
    (h' : Shard.fromBase64Strings prof prg seed strs n m T' b = .ok s') (ev₁ ev₂ : WriteEvent) (fs : FS) (dbPath paramsPath : Path) :
    s.writeToFile ev₁ ev₂ fs dbPath paramsPath = s'.writeToFile ev₁ ev₂ fs dbPath paramsPath ∧
    s.db.elemSize = T ∧ s'.db.elemSize = T' := by
  obtain ⟨-, -, elems, hl, -, hdec, -, rfl⟩ := shardInv hb h
  obtain ⟨-, -, elems', hl', -, hdec', -, rfl⟩ := shardInv hb h'
  rw [hdec] at hdec'
  have he : elems = elems' := List.map_injective_iff.2 (fun a b h => by cases h; rfl) hdec'
  subst he
  refine ⟨?_, rfl, rfl⟩
  unfold Shard.writeToFile shardOf dbOf
  simp only [hw]

/-- Two shards whose files are the same: 7-bit and 8-bit elements in digits of 4 bits. -/
example : ∃ s s', Shard.fromBase64Strings .debug (fun _ i => BitVec.ofNat 32 (i * 7919)) (List.replicate 32 3#8)
      ["AAEC".toList, "/w==".toList, "QUI=".toList] 2 2 8 4 = .ok s ∧
    Shard.fromBase64Strings .debug (fun _ i => BitVec.ofNat 32 (i * 7919)) (List.replicate 32 3#8)
      ["AAEC".toList, "/w==".toList, "QUI=".toList] 2 2 7 4 = .ok s' ∧ s ≠ s' ∧
    ∃ fs', s.writeToFile .succeeds .succeeds (fun _ => none) "db".toList "params".toList = (fs', .ok ()) ∧
      s'.writeToFile .succeeds .succeeds (fun _ => none) "db".toList "params".toList = (fs', .ok ()) ∧
      FilesHold fs' "db".toList "params".toList s.db.entries s.baseParams.publicSeed s.baseParams.rhs := by
  obtain ⟨s, h, -⟩ := exOk (Shard.fromBase64Strings .debug (fun _ i => BitVec.ofNat 32 (i * 7919)) (List.replicate 32 3#8)
      ["AAEC".toList, "/w==".toList, "QUI=".toList] 2 2 8 4) (fun _ => True) (by decide +kernel)
  obtain ⟨s', h', -⟩ := exOk (Shard.fromBase64Strings .debug (fun _ i => BitVec.ofNat 32 (i * 7919)) (List.replicate 32 3#8)
      ["AAEC".toList, "/w==".toList, "QUI=".toList] 2 2 7 4) (fun _ => True) (by decide +kernel)
  obtain ⟨e1, e2, e3⟩ := C98_lost _ _ _ _ _ _ _ _ _ s s' (by decide) (by decide) h h' .succeeds .succeeds (fun _ => none) "db".toList "params".toList
  refine ⟨s, s', h, h', ?_, ?_⟩
  · rintro rfl
    omega
  · have hw : s.writeToFile .succeeds .succeeds (fun _ => none) "db".toList "params".toList = ((s.writeToFile .succeeds .succeeds (fun _ => none) "db".toList "params".toList).1, .ok ()) := rfl
    exact ⟨_, hw, by rw [← e1]; exact hw, ((C98_contents s ⟨⟨[], 0, 0, 0, ⟨[], ⟨0, 0, 0⟩⟩⟩, ⟨0, 0, [], [], 0, 0, ⟨[], ⟨0, 0, 0⟩⟩⟩⟩ _ _ "db".toList "params".toList
      (by decide) .succeeds .succeeds).1 hw).1⟩

end Chalamet
