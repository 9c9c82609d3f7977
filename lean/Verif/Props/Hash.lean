import Verif.Lemmas.Hash

/-!
# Hashing: C31, C32, C33, C46
-/

namespace Chalamet

/-! ## C31: slots -/

/-- **C31.** For every layout the constructor can compute and every 64-bit hash, the three slots lie in
three consecutive segments of the same power-of-two length, are pairwise distinct and below the array
length. -/
theorem C31_slots (size segExp cap0 : Nat) (lay : Layout)
    (h : bfLayout size segExp cap0 = .ok lay) (hash : U64) :
    ∃ L seg : Nat, lay.geom.segmentLength.toNat = L ∧ (∃ s, L = 2 ^ s) ∧
      lay.arrayLen = (lay.segmentCount + 2) * L ∧ seg < lay.segmentCount ∧
      let (i, j, k) := hashOfHash hash lay.geom
      i.toNat / L = seg ∧ j.toNat / L = seg + 1 ∧ k.toNat / L = seg + 2 ∧
      i.toNat < lay.arrayLen ∧ j.toNat < lay.arrayLen ∧ k.toNat < lay.arrayLen ∧
      i ≠ j ∧ i ≠ k ∧ j ≠ k := by
  obtain ⟨s, _, hg⟩ := bfLayout_wf h
  obtain ⟨h0, h1, h2⟩ := hashOfHash_segments hg hash
  obtain ⟨l0, l1, l2, d1, d2, d3⟩ := hashOfHash_lt hg hash
  refine ⟨2 ^ s, _, hg.sl, ⟨s, rfl⟩, hg.len_eq.symm, h0, rfl, h1, h2, l0, l1, l2, ?_, ?_, ?_⟩
  · exact fun e => d1 (congrArg BitVec.toNat e)
  · exact fun e => d2 (congrArg BitVec.toNat e)
  · exact fun e => d3 (congrArg BitVec.toNat e)

/-- Non-vacuity of C31: a layout for 1000 keys. -/
example : ∃ lay, bfLayout 1000 7 1270 = .ok lay ∧ lay.arrayLen = 1280 ∧ lay.segmentCount = 8 :=
  ⟨_, rfl, rfl, rfl⟩

/-! ## C32: the finaliser is a bijection -/

/-- **C32.** `mix64` is a bijection of the 64-bit words. -/
theorem C32_mix64_bijective : Function.Bijective mix64 :=
  ⟨fun _ _ h => mix64_inj h, mix64_surj⟩

/-- **C32.** For every seed, `mix` is a bijection in the key: distinct 64-bit keys never collide. -/
theorem C32_mix_bijective (seed : U64) : Function.Bijective fun key => mix key seed := by
  constructor
  · intro x y h
    have := mix64_inj h
    have := congrArg (· - seed) this
    simpa using this
  · intro y
    obtain ⟨x, hx⟩ := mix64_surj y
    exact ⟨x - seed, by show mix64 (x - seed + seed) = y; rw [BitVec.sub_add_cancel]; exact hx⟩

example : mix 5#64 7#64 ≠ mix 6#64 7#64 := by decide +kernel

/-! ## C33: 256-bit keys -/

/-- **C33.** The hash of a 256-bit key is invariant under every permutation of its words, for every
seed. Hence the slots, the key fingerprint and the result of `retrieve` are the same for a key and all
its rearrangements: they can never be told apart. -/
theorem C33_permutation_collision (k₁ k₂ : Key) (hp : k₁.Perm k₂) (seed : List U8) :
    mix256 k₁ seed = mix256 k₂ seed ∧
    (∀ prof g, BinaryFuseP32.hashEval prof k₁ seed g = BinaryFuseP32.hashEval prof k₂ seed g) ∧
    (∀ label, BinaryFuseP32.getKeyFingerprint k₁ seed label =
      BinaryFuseP32.getKeyFingerprint k₂ seed label) ∧
    (∀ (f : BinaryFuseP32) (label : U64), f.retrieve k₁ label = f.retrieve k₂ label) := by
  have key : ∀ seed, mix256 k₁ seed = mix256 k₂ seed := by
    intro seed
    unfold mix256
    cases seedWords seed with
    | ok ws =>
      simp only [Res.bind_ok]
      congr 1
      apply List.Perm.foldl_eq' (hp.map _)
      intro a _ b _ c
      ring
    | _ => rfl
  refine ⟨key seed, ?_, ?_, ?_⟩
  · intro prof g; unfold BinaryFuseP32.hashEval; rw [key]
  · intro label; unfold BinaryFuseP32.getKeyFingerprint; rw [key]
  · intro f label; unfold BinaryFuseP32.retrieve; rw [key]

/-- The naive claim (rearranged keys hash differently) is refuted by distinct keys with equal
hashes under every seed. -/
theorem C33_refuted : ∃ k₁ k₂ : Key, k₁.length = 4 ∧ k₂.length = 4 ∧ k₁ ≠ k₂ ∧
    ∀ seed, mix256 k₁ seed = mix256 k₂ seed :=
  ⟨[1#64, 2#64, 3#64, 4#64], [2#64, 1#64, 3#64, 4#64], rfl, rfl, by decide,
    fun seed => (C33_permutation_collision _ _ (List.Perm.swap _ _ _) seed).1⟩

/-! ## C46: retry seeds -/

/-- The generator state after `t` calls of `splitmix64` starting from `s`. -/
def splitmixState (s : U64) : Nat → U64
  | 0 => s
  | t + 1 => (splitmix64 (splitmixState s t)).1

/-- The `t`-th output (0-based). -/
def splitmixSeed (s : U64) (t : Nat) : U64 := (splitmix64 (splitmixState s t)).2

theorem splitmixState_eq (s : U64) (t : Nat) :
    splitmixState s t = s + BitVec.ofNat 64 t * 0x9e3779b97f4a7c15#64 := by
  induction t with
  | zero => simp [splitmixState]
  | succ t ih =>
    have : (splitmix64 (splitmixState s t)).1 = splitmixState s t + 0x9e3779b97f4a7c15#64 := rfl
    rw [splitmixState, this, ih, BitVec.ofNat_add, BitVec.add_mul]
    rw [BitVec.add_assoc]
    simp

/-- **C46.** Two attempts use the same seed exactly when their numbers agree modulo `2^64`; in
particular the first `2^64` seeds are pairwise distinct. -/
theorem C46_seeds_distinct (s : U64) (t u : Nat) :
    splitmixSeed s t = splitmixSeed s u ↔ t % 2 ^ 64 = u % 2 ^ 64 := by
  constructor
  · intro h
    have h1 := splitmix_out_inj h
    rw [splitmixState_eq, splitmixState_eq] at h1
    have h2 : BitVec.ofNat 64 t * 0x9e3779b97f4a7c15#64 = BitVec.ofNat 64 u * 0x9e3779b97f4a7c15#64 := by
      have := congrArg (fun x => x - s) h1
      simpa [BitVec.add_comm s] using this
    have h3 := mul_inj_of_inv (d := 0xf1de83e19937733d#64) (by decide +kernel) h2
    have := congrArg BitVec.toNat h3
    simpa using this
  · intro h
    have : BitVec.ofNat 64 t = BitVec.ofNat 64 u := by
      apply BitVec.eq_of_toNat_eq
      simpa using h
    unfold splitmixSeed
    rw [splitmixState_eq, splitmixState_eq, this]

example : splitmixSeed 1#64 0 = 0x910a2dec89025cc1#64 := by decide +kernel

end Chalamet
