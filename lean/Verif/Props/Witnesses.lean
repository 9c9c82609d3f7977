import Verif.Props.KvStrings
import Verif.Props.Server
import Verif.Props.Files
import Verif.Props.Client
import Verif.Props.Cli
import Verif.Props.Copies
import Verif.Props.FilterLookups
import Verif.Props.Xor
import Verif.Props.Sizes
import Verif.Props.Peeling
import Verif.Props.Build
import Verif.Props.FailureRate
import Verif.Props.KvServer
import Verif.Props.System
import Verif.Props.Space
import Verif.Props.Attainable
import Verif.Props.Sharp
import Verif.Props.KvAccess
import Verif.Props.AbsentKeys

/-!
# Witnesses

Concrete, non-trivial cases that meet *all* hypotheses of a theorem at the same time, for the theorems whose hypotheses include
a successful run (a shard that was built, parameters that were sampled) and whose own file shows a run but not the list of
hypotheses. Where it is cheap the theorem is applied to the case, so that its conclusion is visible too.
-/

namespace Chalamet

open Spec

/-- From an evaluated Boolean to an existential statement. -/
theorem exOk {α : Type} (x : Res α) (P : α → Prop) [DecidablePred P]
    (h : (match x with | .ok a => decide (P a) | _ => false) = true) : ∃ a, x = .ok a ∧ P a := by
  cases x with
  | ok a => exact ⟨a, rfl, by simpa using h⟩
  | err e => simp at h
  | panic => simp at h
  | diverge => simp at h

/-! ## Index shards -/

/-- Three elements of two bytes. -/
def wElems : List (List U8) := [[0#8, 1#8], [255#8, 127#8], [0x12#8, 0x34#8]]
/-- Public randomness of the example. -/
def wPrg : Prg := fun _ k => BitVec.ofNat 32 (1000003 * k + 17)
/-- Words for the secret and the noise. -/
def wTape : List U32 := (List.range 10).map fun k => BitVec.ofNat 32 (2000000000 + k * 300000000)

/-- Hypotheses of C01, C03 (with its worst-case bound), C12, C13, C16, C17, C20, C21, C24, C25, C26, C52 (index), C56, C61, C67, C71
and C90: a shard of three elements is built, its parameters are sampled. -/
theorem wIndex : ∃ shard qp tape', Shard.fromBase64Strings .debug wPrg [] (wElems.map b64Encode) 2 3 16 5 = .ok shard ∧
    generateIndexQueryParams (commonParamsFrom wPrg shard.baseParams.publicSeed shard.baseParams.dim shard.baseParams.m)
      shard.baseParams wTape = .ok (qp, tape') ∧
    (wElems.map b64Encode).map b64Decode = wElems.map Res.ok ∧ (∀ e ∈ wElems.take 3, 16 ≤ 8 * e.length) ∧
    (∀ e ∈ wElems, 16 = 8 * e.length) ∧ ¬ 5 ∣ 16 ∧ 3 * (2 ^ 5 - 1) < 2 ^ (31 - 5) ∧ 3 ≤ wElems.length := by
  obtain ⟨shard, h1, h2⟩ := exOk (Shard.fromBase64Strings .debug wPrg [] (wElems.map b64Encode) 2 3 16 5)
    (fun shard => (generateIndexQueryParams (commonParamsFrom wPrg shard.baseParams.publicSeed shard.baseParams.dim
      shard.baseParams.m) shard.baseParams wTape).isOk = true) (by decide +kernel)
  obtain ⟨⟨qp, tape'⟩, h3, -⟩ := exOk (generateIndexQueryParams (commonParamsFrom wPrg shard.baseParams.publicSeed
    shard.baseParams.dim shard.baseParams.m) shard.baseParams wTape) (fun _ => True) (by
      revert h2
      cases generateIndexQueryParams (commonParamsFrom wPrg shard.baseParams.publicSeed
        shard.baseParams.dim shard.baseParams.m) shard.baseParams wTape <;> simp [Res.isOk])
  exact ⟨shard, qp, tape', h1, h3, by decide +kernel⟩

/-- C14: 16 bits in 4-bit digits. -/
example : b64Decode (b64Encode wElems[1]) = .ok wElems[1] ∧ 4 ∣ 8 * wElems[1].length := by decide +kernel

/-! ## Keyword shards -/

/-- Three pairs with two 9-bit digits each. -/
def wKvs : List KeyValue :=
  List.zipWith (fun k v => { key := k, value := v }) exKeys [[300#32, 7#32], [0#32, 511#32], [1#32, 64#32]]
/-- Initial contents of the filters. -/
def wFp0 : Nat → Nat → U32 := fun i j => BitVec.ofNat 32 (i * 31 + j * 977)

/-- Hypotheses of C04 (with its worst-case bound), C37, C39, C56, C62, C63, C66, C67, C70 and C71 (keyword): a shard of three
pairs is built, its parameters are sampled, the stored keys have different hashes, and no cell is used by 64 keys. -/
theorem wKv : ∃ shard qp tape', KVShard.new .debug wPrg [7#8] 3 12 wFp0 exSeed wKvs 2 99 16 9 = .ok shard ∧
    generateKvQueryParams (commonParamsFrom wPrg shard.baseParams.publicSeed shard.baseParams.dim shard.baseParams.m)
      shard.baseParams kvExTape = .ok (qp, tape') ∧
    (∀ kv ∈ wKvs, kv.value.length = width 16 9) ∧ (wKvs.map fun kv => mix256 kv.key exSeed).Nodup ∧
    width 16 9 ≤ shard.db.entries.length ∧ shard.baseParams.m * (2 ^ 9 - 1) < 2 ^ (31 - 9) ∧
    ∀ s, slotLoad exSeed shard.db.filterParams.geom (wKvs.map (·.key)) s < 64 := by
  obtain ⟨shard, h1, h2, h4, h5⟩ := exOk (KVShard.new .debug wPrg [7#8] 3 12 wFp0 exSeed wKvs 2 99 16 9)
    (fun shard => (generateKvQueryParams (commonParamsFrom wPrg shard.baseParams.publicSeed shard.baseParams.dim
      shard.baseParams.m) shard.baseParams kvExTape).isOk = true ∧ width 16 9 ≤ shard.db.entries.length ∧
      shard.baseParams.m * (2 ^ 9 - 1) < 2 ^ (31 - 9)) (by decide +kernel)
  obtain ⟨⟨qp, tape'⟩, h3, -⟩ := exOk (generateKvQueryParams (commonParamsFrom wPrg shard.baseParams.publicSeed
    shard.baseParams.dim shard.baseParams.m) shard.baseParams kvExTape) (fun _ => True) (by
      revert h2
      cases generateKvQueryParams (commonParamsFrom wPrg shard.baseParams.publicSeed
        shard.baseParams.dim shard.baseParams.m) shard.baseParams kvExTape <;> simp [Res.isOk])
  refine ⟨shard, qp, tape', h1, h3, by decide +kernel, by decide +kernel, h4, h5, ?_⟩
  intro s
  unfold slotLoad
  exact lt_of_le_of_lt (List.length_filter_le _ _) (by decide)

/-- C90, C39 (value): the cells of the second column say `511` about the second stored key. -/
example : ∃ shard col, KVShard.new .debug wPrg [7#8] 3 12 wFp0 exSeed wKvs 2 99 16 9 = .ok shard ∧
    shard.db.getRow 1 = .ok col ∧
    CellValue .debug shard.baseParams.filterParams 9 (wKvs[1]'(by decide)).key 1 col 511 := by
  obtain ⟨shard, qp, tape', h1, _, _, h4, _⟩ := wKv
  obtain ⟨col, hv, h5, h6⟩ := C90_kv_local_lookup .debug wPrg [7#8] 3 12 wFp0 exSeed wKvs 2 99 16 9 (by omega) shard h1
    (.inl rfl) 1 (by decide) (by
      intro k hk hik he
      have := (List.nodup_iff_injective_get.1 h4) (a₁ := ⟨k, by simpa using hk⟩) (a₂ := ⟨1, by decide⟩) (by simpa using he)
      simp only [Fin.mk.injEq] at this
      omega) 1 (by decide)
  exact ⟨shard, col, h1, h5, h6⟩

/-- C95: with these pairs the key `[77, 78, 79, 80]` has slots 6, 13 and 22, of which no stored key uses 6, so the columns say
every pair of 9-bit values about it equally often. -/
example : ∃ db n, KVDatabase.new .debug 3 12 wFp0 exSeed wKvs 99 16 9 = .ok db ∧ (∀ c ∈ db.entries, c.length = n) ∧
    db.filterParams.getHashEvals .debug [77#64, 78#64, 79#64, 80#64] = .ok [6, 13, 22] ∧
    slotLoad exSeed db.filterParams.geom [[77#64, 78#64, 79#64, 80#64]] 6 = 1 ∧
    slotLoad exSeed db.filterParams.geom (wKvs.map (·.key)) 6 = 0 := by
  obtain ⟨db, h1, h2, h3, h4⟩ := exOk (KVDatabase.new .debug 3 12 wFp0 exSeed wKvs 99 16 9)
    (fun db => db.filterParams.getHashEvals .debug [77#64, 78#64, 79#64, 80#64] = .ok [6, 13, 22] ∧
      slotLoad exSeed db.filterParams.geom [[77#64, 78#64, 79#64, 80#64]] 6 = 1 ∧
      slotLoad exSeed db.filterParams.geom (wKvs.map (·.key)) 6 = 0) (by decide +kernel)
  obtain ⟨_, n, _, hn, _⟩ := C95_kv_distribution .debug 3 12 9 (by omega) wFp0 exSeed wKvs 99 16 db h1 [77#64, 78#64, 79#64, 80#64]
  exact ⟨db, n, h1, hn, h2, h3, h4⟩

/-- C95 (taken slots): the absent key `[123, 0, 0, 0]` has the slots of the second stored key, and different contents give it the
same value. -/
example : ∃ f g, BinaryFuseP32.fromVec .debug 3 12 (fun i => BitVec.ofNat 32 (i * i + 12345)) exSeed exKeys
      [1000#32, 2#32, 0xffffffff#32] 7#64 1024#64 = .ok f ∧
    BinaryFuseP32.fromVec .debug 3 12 (fun i => BitVec.ofNat 32 (i * 77)) exSeed exKeys
      [1000#32, 2#32, 0xffffffff#32] 7#64 1024#64 = .ok g ∧ f.fingerprints ≠ g.fingerprints ∧
    f.retrieve [123#64, 0#64, 0#64, 0#64] 7#64 = .ok 0x146#32 ∧ g.retrieve [123#64, 0#64, 0#64, 0#64] 7#64 = .ok 0x146#32 ∧
    [123#64, 0#64, 0#64, 0#64] ∉ exKeys ∧
    BinaryFuseP32.hashEval .debug [123#64, 0#64, 0#64, 0#64] exSeed f.geom = .ok [1, 8, 18] ∧
    BinaryFuseP32.hashEval .debug [5#64, 6#64, 7#64, 8#64] exSeed f.geom = .ok [1, 8, 18] := by
  obtain ⟨f, h1, h2, h3, h4⟩ := exOk (BinaryFuseP32.fromVec .debug 3 12 (fun i => BitVec.ofNat 32 (i * i + 12345)) exSeed exKeys
      [1000#32, 2#32, 0xffffffff#32] 7#64 1024#64)
    (fun f => f.fingerprints[0]? = some 12345#32 ∧ f.retrieve [123#64, 0#64, 0#64, 0#64] 7#64 = .ok 0x146#32 ∧
      BinaryFuseP32.hashEval .debug [123#64, 0#64, 0#64, 0#64] exSeed f.geom = .ok [1, 8, 18] ∧
      BinaryFuseP32.hashEval .debug [5#64, 6#64, 7#64, 8#64] exSeed f.geom = .ok [1, 8, 18]) (by decide +kernel)
  obtain ⟨g, k1, k2, k3⟩ := exOk (BinaryFuseP32.fromVec .debug 3 12 (fun i => BitVec.ofNat 32 (i * 77)) exSeed exKeys
      [1000#32, 2#32, 0xffffffff#32] 7#64 1024#64)
    (fun f => f.fingerprints[0]? = some 0#32 ∧ f.retrieve [123#64, 0#64, 0#64, 0#64] 7#64 = .ok 0x146#32) (by decide +kernel)
  refine ⟨f, g, h1, k1, ?_, h3, k3, by decide +kernel, h4⟩
  intro e
  rw [e, k2] at h2
  simp at h2

/-- These are the sizes the library computes for three keys, whatever the rounding errors of the logarithm. -/
theorem three_sizes {log : ℚ → ℚ} (hlog : LogAccurate log) : bfSegExp log 3 = 3 ∧ bfCap0 log 3 = 12 := by
  have hl3 := log_333
  have h3 : 0 < Real.log 3 := Real.log_pos (by norm_num)
  have h1 : 4 * Real.log 3.33 ≤ 5 * Real.log 3 := by
    have : Real.log ((3.33 : ℝ) ^ 4) ≤ Real.log ((3 : ℝ) ^ 5) := Real.log_le_log (by norm_num) (by norm_num)
    rw [Real.log_pow, Real.log_pow] at this
    exact_mod_cast this
  have h2 : Real.log 3 ≤ Real.log 3.33 := Real.log_le_log (by norm_num) (by norm_num)
  have h4 : 25 * Real.log 3 ≤ 2 * Real.log 1000000 := by
    have : Real.log ((3 : ℝ) ^ 25) ≤ Real.log ((1000000 : ℝ) ^ 2) := Real.log_le_log (by norm_num) (by norm_num)
    rw [Real.log_pow, Real.log_pow] at this
    exact_mod_cast this
  have h5 : 5 * Real.log 1000000 ≤ 63 * Real.log 3 := by
    have : Real.log ((1000000 : ℝ) ^ 5) ≤ Real.log ((3 : ℝ) ^ 63) := Real.log_le_log (by norm_num) (by norm_num)
    rw [Real.log_pow, Real.log_pow] at this
    exact_mod_cast this
  have q1 : 0.8 ≤ Real.log 3 / Real.log 3.33 := by
    rw [le_div_iff₀ (by linarith)]
    linarith
  have q2 : Real.log 3 / Real.log 3.33 ≤ 1 := by
    rw [div_le_iff₀ (by linarith)]
    linarith
  have q3 : 12.5 ≤ Real.log 1000000 / Real.log 3 := by
    rw [le_div_iff₀ h3]
    linarith
  have q4 : Real.log 1000000 / Real.log 3 ≤ 12.6 := by
    rw [div_le_iff₀ h3]
    linarith
  constructor
  · obtain ⟨a, b⟩ := bfSegExp_accurate hlog (n := 3) (by norm_num) (by norm_num)
    unfold idealExp at a b
    push_cast at a b
    have h36 : (1 : ℝ) / 2 ^ 36 ≤ 0.01 := by norm_num
    have a' : (bfSegExp log 3 : ℝ) < 4 := by linarith
    have a'' : bfSegExp log 3 < 4 := by exact_mod_cast a'
    have b' : (2 : ℝ) < bfSegExp log 3 := by linarith
    have b'' : 2 < bfSegExp log 3 := by exact_mod_cast b'
    omega
  · have hi : 12 ≤ idealCap 3 ∧ idealCap 3 ≤ 12.075 := by
      unfold idealCap
      push_cast
      rw [mul_div_assoc, max_eq_right (by linarith)]
      constructor <;> linarith
    have := bfCap0_accurate hlog (n := 3) (by norm_num) (by norm_num) (by linarith [hi.2])
    rw [abs_le] at this
    have a' : (11 : ℝ) < bfCap0 log 3 := by linarith [this.1, hi.1]
    have b' : (bfCap0 log 3 : ℝ) < 13 := by linarith [this.2, hi.2]
    have a'' : 11 < bfCap0 log 3 := by exact_mod_cast a'
    have b'' : bfCap0 log 3 < 13 := by exact_mod_cast b'
    omega

/-- Hypotheses of C56 (keyword, sized) and C76 (keyword): the case above, with the library's sizes. -/
example : ∃ log shard, LogAccurate log ∧
    KVShard.new .debug wPrg [7#8] (bfSegExp log wKvs.length) (bfCap0 log wKvs.length) wFp0 exSeed wKvs 2 99 16 9 = .ok shard := by
  obtain ⟨log, hlog⟩ := exists_logAccurate
  obtain ⟨shard, _, _, h, _⟩ := wKv
  obtain ⟨e1, e2⟩ := three_sizes hlog
  exact ⟨log, shard, hlog, by rw [show wKvs.length = 3 from rfl, e1, e2]; exact h⟩

/-- C04 applied to the case: the value of the second key comes back. -/
example : ∃ shard qp tape' qp' q bytes resp, KVShard.new .debug wPrg [7#8] 3 12 wFp0 exSeed wKvs 2 99 16 9 = .ok shard ∧
    generateKvQueryParams (commonParamsFrom wPrg shard.baseParams.publicSeed shard.baseParams.dim shard.baseParams.m)
      shard.baseParams kvExTape = .ok (qp, tape') ∧
    qp.generateKvQuery .debug exKeys[1] = (qp', .ok q) ∧ shard.respond q = .ok bytes ∧
    bincodeDeserialize bytes = .ok resp ∧ qp'.parseKvRow .debug resp exKeys[1] = .ok [0#32, 511#32] := by
  obtain ⟨shard, qp, tape', h1, h2, h3, h4, h5, h6, h7⟩ := wKv
  obtain ⟨qp', q, bytes, resp, e1, e2, e3, e4⟩ := C04_worst_case .debug wPrg [7#8] 3 12 wFp0 exSeed wKvs 2 99 16 9 shard
    (by decide) (by decide) (by decide) h1 h3 (.inl rfl) h6 _ _ _ h2 1 (by decide) (by decide +kernel)
  exact ⟨shard, qp, tape', qp', q, bytes, resp, h1, h2, e1, e2, e3, e4⟩

/-- C92 (key-value) applied to the case: no random words can spoil the value of the second key. -/
example : ∃ shard, KVShard.new .debug wPrg [7#8] 3 12 wFp0 exSeed wKvs 2 99 16 9 = .ok shard ∧
    ∀ tape row, kvExchange .debug wPrg shard exKeys[1] tape = .ok row → row = [0#32, 511#32] := by
  obtain ⟨shard, h1, h2⟩ := exOk (KVShard.new .debug wPrg [7#8] 3 12 wFp0 exSeed wKvs 2 99 16 9)
    (fun shard => ∀ col ∈ shard.db.entries, colSum col < 2 ^ (31 - 9)) (by decide +kernel)
  exact ⟨shard, h1, (C92_kv_exact .debug wPrg [7#8] 3 12 wFp0 exSeed wKvs 2 99 16 9 shard (by decide) (by decide) (by decide)
    h1 (by decide +kernel) (.inl rfl) 1 (by decide) (by decide +kernel)).2 h2⟩

/-- C92 (key-value) applied to the same pairs with 20-bit digits: some random words do. -/
example : ∃ shard, KVShard.new .debug wPrg [7#8] 3 12 wFp0 exSeed wKvs 2 99 40 20 = .ok shard ∧
    ∃ tape row, kvExchange .debug wPrg shard exKeys[1] tape = .ok row ∧ row ≠ [0#32, 511#32] := by
  obtain ⟨shard, h1, h2⟩ := exOk (KVShard.new .debug wPrg [7#8] 3 12 wFp0 exSeed wKvs 2 99 40 20)
    (fun shard => ¬ ∀ col ∈ shard.db.entries, colSum col < 2 ^ (31 - 20)) (by decide +kernel)
  have h := mt (C92_kv_exact .debug wPrg [7#8] 3 12 wFp0 exSeed wKvs 2 99 40 20 shard (by decide) (by decide) (by decide)
    h1 (by decide +kernel) (.inl rfl) 1 (by decide) (by decide +kernel)).1 h2
  push Not at h
  exact ⟨shard, h1, h⟩

/-! ## Filters -/

/-- C36 (and C28, C34): a filter for the plaintext modulus `2^10`. -/
example : ∃ f, BinaryFuseP32.fromVec .debug 3 16 (fun i => BitVec.ofNat 32 (i * i + 12345)) exSeed exKeys
      [1000#32, 2#32, 0xffffffff#32] 7#64 1024#64 = .ok f ∧ (1024#64 : U64).toNat = 2 ^ 10 :=
  exOk _ _ (by decide +kernel)

/-- C35: both cases of the characterisation occur. -/
example : (256 ≤ (1024#64 : U64).toNat ∧ (1024#64 : U64).toNat ∣ 2 ^ 32) ∧
    (256 ≤ (1000#64 : U64).toNat ∧ ¬ (1000#64 : U64).toNat ∣ 2 ^ 32) := by decide

/-- C74 and C89 (Fuse): a filter of 44829 keys, exactly at the excess. -/
example : ∃ (keys : List U64) (f : Fuse 8), keys.length = 44829 ∧
    Fuse.tryFrom 8 .debug (fuseC0 keys.length) (fun _ => 0#8) keys = .ok f ∧ 9101 * (8 * keys.length) < 8000 * (8 * f.len) := by
  obtain ⟨keys, hl, _, h⟩ := (C91_fuse 44829 (by norm_num) (by norm_num)).2 (by norm_num)
  obtain ⟨f, hf, _⟩ := h 8 .debug (fun _ => 0#8)
  rw [← hl] at hf
  exact ⟨keys, f, hl, hf, ((C89_fuse 8 (by norm_num) _ _ keys (by omega) (by omega) f hf).2.1
    (by rw [hl])).2⟩

/-- C76 and C89 (binary fuse): a filter of a million keys, with the sizes the library computes. -/
example : ∃ log, LogAccurate log ∧ ∃ (keys : List U64) (f : BinaryFuse 8), keys.length = 1000000 ∧
    BinaryFuse.tryFrom 8 .debug (bfSegExp log keys.length) (bfCap0 log keys.length) (fun _ => 0#8) keys = .ok f ∧
    f.len = 1130496 := by
  obtain ⟨log, hlog⟩ := exists_logAccurate
  obtain ⟨keys, hl, _, h⟩ := C91_binary_fuse_sized log hlog 1000000 (by norm_num)
  obtain ⟨f, hf, _⟩ := h 8 .debug (fun _ => 0#8)
  rw [← hl] at hf
  exact ⟨log, hlog, keys, f, hl, hf, (C89_binary_fuse_million log hlog 8 (by norm_num) _ _ keys hl f hf).1⟩

/-! ## Clients -/

/-- C59, C60 (keyword) and C73: a client with two 9-bit columns and filter parameters of a real geometry; its row depends on the
response as C60 says. -/
example : ∃ (qp : QueryParams FilterParams) (fp : FilterParams), qp.plaintextBits = 9 ∧ qp.elemSize = 16 ∧
    width 16 9 ≤ qp.rhs.length ∧ qp.extraParams = some fp ∧ fp.seed.length = 32 ∧
    qp.parseKvRow .debug [0#32, 0#32] exKeys[0] ≠ qp.parseKvRow .debug [0#32, BitVec.ofNat 32 (2 ^ 23)] exKeys[0] :=
  ⟨{ lhs := [1#32], rhs := [100#32, 200#32], elemSize := 16, plaintextBits := 9,
     extraParams := some { seed := exSeed, geom := { segmentLength := 8#32, segmentLengthMask := 7#32, segmentCountLength := 8#32 } },
     used := false }, _, rfl, rfl, by decide, rfl, by decide, by decide +kernel⟩

/-- C72: options given as text. -/
example : IsDecimal ((some "10".toList).getD ['1', '6']) 10 ∧
    (parseCliFlags .debug (some "10".toList) none none (some "1024".toList)).isOk = true := by
  refine ⟨?_, by decide +kernel⟩
  exact ((C72_parse_number 100 (by norm_num) "10".toList 10).1 (by decide +kernel)).1

end Chalamet
