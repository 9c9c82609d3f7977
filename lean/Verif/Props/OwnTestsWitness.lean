import Verif.Props.OwnTestsFilter
import Verif.Props.Witnesses

/-!
# Witnesses for C110

Concrete runs of the models of the project's tests, with nonzero secrets and noises: some pass, some fail, and the hypotheses of
the theorems about the tests are met.
-/

namespace Chalamet

open Spec

/-- Words for the secret and the noise of the `i`-th query. -/
def uTape (i : Nat) : List U32 := (List.range 40).map fun k => BitVec.ofNat 32 (2000000000 + (k + i) * 300000000)
/-- The random bytes of the strings. -/
def uEnt (i : Nat) : U8 := BitVec.ofNat 8 (i * 91 + 3)
/-- A matrix whose rows make the mask large. -/
def uPrg : Prg := fun _ i => BitVec.ofNat 32 (4294967295 - i)
/-- The bytes of an ASCII string. -/
def uUtf8 (l : List Char) : List U8 := l.map fun c => BitVec.ofNat 8 c.toNat

/-- A run of the index test that passes and one that fails: same strings, same secrets, same noise, another matrix. -/
example : testIndex .debug wPrg uEnt [] uTape 3 2 16 5 2 = .ok () ∧ testIndex .debug uPrg uEnt [] uTape 3 2 16 5 2 = .panic := by
  constructor <;> decide +kernel

/-- The words suffice for a secret of length `n` and a noise of length `m`, both not zero. -/
def drawnOk (n m : Nat) (tape : List U32) : Bool :=
  match randomTernaryVector n tape with
      | .ok r => r.1.any (· ≠ 0#32) &&
        (match randomTernaryVector m r.2 with | .ok q => q.1.any (· ≠ 0#32) | _ => false)
      | _ => false
/-- What `drawnOk` says. -/
theorem drawn {n m : Nat} {tape : List U32}
    (h : drawnOk n m tape = true) :
    ∃ r q, randomTernaryVector n tape = .ok r ∧ randomTernaryVector m r.2 = .ok q ∧ (∃ x ∈ r.1, x ≠ 0#32) ∧ ∃ x ∈ q.1, x ≠ 0#32 := by
  unfold drawnOk at h
  cases hr : randomTernaryVector n tape with
  | ok r =>
    rw [hr] at h
    simp only [Bool.and_eq_true, List.any_eq_true, decide_eq_true_eq] at h
    cases hq : randomTernaryVector m r.2 with
    | ok q => rw [hq] at h; exact ⟨r, q, rfl, hq, h.1, by simpa using h.2⟩
    | err e => rw [hq] at h; simp at h
    | panic => rw [hq] at h; simp at h
    | diverge => rw [hq] at h; simp at h
  | err e => rw [hr] at h; simp at h
  | panic => rw [hr] at h; simp at h
  | diverge => rw [hr] at h; simp at h
/-- The hypotheses of `C110_index_rate` from those for each query. -/
theorem drawnAll {n m count : Nat} {tapes : Nat → List U32} (ent : Nat → U8) (len : Nat)
    (h : ∀ i < count, ∃ r q, randomTernaryVector n (tapes i) = .ok r ∧ randomTernaryVector m r.2 = .ok q ∧ (∃ x ∈ r.1, x ≠ 0#32) ∧
      ∃ x ∈ q.1, x ≠ 0#32) :
    ∃ s t1 e t2 : Nat → List U32, (∀ i < count, randomTernaryVector n (tapes i) = .ok (s i, t1 i)) ∧
      (∀ i < count, randomTernaryVector m (t1 i) = .ok (e i, t2 i)) ∧ (∀ i < count, ∃ x ∈ s i, x ≠ 0#32) ∧
      (∀ i < count, ∃ x ∈ e i, x ≠ 0#32) ∧
      ∃ elems : List (List U8), (testDbEles ent m len).map b64Decode = elems.map Res.ok := by
  choose! r q hr hq hr0 hq0 using h
  obtain ⟨elems, hstr, -⟩ := testDbEles_spec ent m len
  exact ⟨fun i => (r i).1, fun i => (r i).2, fun i => (q i).1, fun i => (q i).2, hr, hq, hr0, hq0, elems, by
    rw [hstr, map_decode_encode]⟩
/-- Hypotheses of `C110_index_test` and `C110_index_rate` for these runs; the secrets and the noises are not zero. -/
example : 1 ≤ 5 ∧ 5 ≤ 31 ∧ 8 ∣ 16 ∧ ¬ 5 ∣ 16 ∧ 3 * 2 ^ (16 % 5) ≤ 2 ^ (31 - 5) ∧
    ∃ s t1 e t2 : Nat → List U32, (∀ i < 2, randomTernaryVector 2 (uTape i) = .ok (s i, t1 i)) ∧
      (∀ i < 2, randomTernaryVector 3 (t1 i) = .ok (e i, t2 i)) ∧ (∀ i < 2, ∃ x ∈ s i, x ≠ 0#32) ∧
      (∀ i < 2, ∃ x ∈ e i, x ≠ 0#32) ∧
      ∃ elems : List (List U8), (testDbEles uEnt 3 2).map b64Decode = elems.map Res.ok := by
  refine ⟨by decide, by decide, by decide, by decide, by decide, drawnAll uEnt 2 fun i hi => drawn ?_⟩
  revert i
  decide +kernel

/-- Secrets of any dimension that are not zero. -/
theorem secretsExist (w : Fin 4294967293) (hw : ternaryOf (BitVec.ofNat 32 w) ≠ 0#32) (n : Nat) (hn : 0 < n) :
    ∃ ts s : Nat → List U32, (∀ i < 10, randomTernaryVector n (ts i) = .ok (s i, [])) ∧ ∀ i < 10, ∃ x ∈ s i, x ≠ 0#32 := by
  refine ⟨fun _ => words fun _ : Fin n => w,
    fun _ => List.ofFn fun _ : Fin n => ternaryOf (BitVec.ofNat 32 w),
    fun i _ => words_sampled _, fun i _ => ⟨_, List.mem_ofFn.2 ⟨⟨0, hn⟩, rfl⟩, hw⟩⟩
/-- Hypotheses of `C110_index_test_fails` and `C110_kv_test_passes`: secrets of dimension 512 that are not zero. -/
example : ∃ ts s : Nat → List U32, (∀ i < 10, randomTernaryVector 512 (ts i) = .ok (s i, [])) ∧ ∀ i < 10, ∃ x ∈ s i, x ≠ 0#32 :=
  secretsExist ⟨2000000000, by decide +kernel⟩ (by decide +kernel) 512 (by decide)

/-- A run of the reuse test that passes and one that fails. -/
example : testReuse .debug wPrg uEnt [] (uTape 0) 3 2 16 5 = .ok () ∧ testReuse .debug uPrg uEnt [] (uTape 0) 3 2 16 5 = .panic := by
  constructor <;> decide +kernel

/-- The keyword test passes with the matrix for which the index test fails. -/
example : testKv .debug kvExSha uPrg uUtf8 uEnt [] 2 12 (fun _ i => BitVec.ofNat 32 (i * 5)) exSeed uTape 2 2 16 9 2 = .ok () := by
  decide +kernel

/-- The keyword test fails if the shard cannot be built: in debug builds, with fewer than 8 plaintext bits. -/
example : testKv .debug kvExSha uPrg uUtf8 uEnt [] 2 12 (fun _ i => BitVec.ofNat 32 (i * 5)) exSeed uTape 2 2 16 5 2 = .panic := by
  decide +kernel

/-- Three keys in a binary fuse filter: the test passes. -/
example : testBinaryFuse 8 .debug 2 12 (fun i => BitVec.ofNat 8 (i * 7)) [1#64, 77#64, 0xffffffffffffffff#64] = .ok () := by
  decide +kernel

/-- Three keys in the filter of the server: the tests pass if the data are below the modulus, and fail if one is not. -/
example :
    testFilterRetrieve .debug 3 16 (fun i => BitVec.ofNat 32 (i * i + 12345)) exSeed exKeys [1000#32, 2#32, 1023#32] 1#64 1024#64 =
      .ok () ∧
    testFilterHashes .debug 3 16 (fun i => BitVec.ofNat 32 (i * i + 12345)) exSeed exKeys [1000#32, 2#32, 1023#32] 1#64 1024#64 =
      .ok () ∧
    testFilterRetrieve .debug 3 16 (fun i => BitVec.ofNat 32 (i * i + 12345)) exSeed exKeys [1000#32, 2#32, 1024#32] 1#64 1024#64 =
      .panic ∧
    (exKeys.map fun k => mix256 k exSeed).Nodup := by
  refine ⟨?_, ?_, ?_, ?_⟩ <;> decide +kernel

/-- The tests of one pair, with the pair of src/db/kv.rs:337. -/
example : testRetrieval .debug 2 8 (fun _ _ => 0#32) exSeed ⟨[1#64, 2#64, 3#64, 4#64], [1#32, 2#32, 3#32]⟩ 10 = .ok () ∧
    testMult .debug 2 8 (fun _ i => BitVec.ofNat 32 (i * 99)) exSeed ⟨[1#64, 2#64, 3#64, 4#64], [1#32, 2#32, 3#32]⟩ 10 = .ok () := by
  constructor <;> decide +kernel

end Chalamet
