import Verif.Lemmas.Fuse

/-!
# Fuse8/16/32: C43, C44, C53

`c0` is the value of `(FUSE_OVERHEAD * num_keys as f64) as usize`; the theorems hold for all values.
Mathematically it is below 102 exactly for at most 89 keys.
-/

namespace Chalamet

theorem fuseLoop_spec {prof : Profile} {sl : Nat} (hs : 0 < sl) {keys : List U64}
    (hl : keys.length < 2 ^ 32) (n : Nat) (rng seed : U64) :
    fuseLoop prof sl (102 * sl) keys n rng seed = .err .filterFailed ∨
    ∃ stk seed', fuseLoop prof sl (102 * sl) keys n rng seed = .ok (stk, seed') ∧
      (stk.map KeyIndex.hash).Perm (keys.map fun k => mix k seed') ∧ PeelOrder (fuseOn sl) stk := by
  induction n generalizing rng seed with
  | zero => exact Or.inl rfl
  | succ n ih =>
    obtain ⟨r, h1, h2, _⟩ := fuseAttempt_ok (prof := prof) hs (L := keys.map fun k => mix k seed)
      (by simpa using hl)
    unfold fuseLoop
    rw [h1, Res.bind_ok]
    cases r with
    | none => exact ih _ _
    | some stk => exact Or.inr ⟨stk, seed, rfl, (h2 stk rfl).1, (h2 stk rfl).2.1⟩

theorem fuseAttempt_small {prof : Profile} {hash : U64} {hashes : List U64} :
    fuseAttempt prof 0 0 (hash :: hashes) = .panic := by
  unfold fuseAttempt
  rw [foldRes_cons]
  have : fuseAddKey prof 0 (List.replicate 0 HSet.zero) hash = .panic := by
    unfold fuseAddKey fuseHset
    rw [foldRes_cons]
    unfold hAdd
    rw [rd_panic (by simp)]
    rfl
  rw [this]
  rfl

theorem fuseLoop_small {prof : Profile} {k : U64} {keys : List U64} (n : Nat) (rng seed : U64) :
    fuseLoop prof 0 0 (k :: keys) (n + 1) rng seed = .panic := by
  unfold fuseLoop
  rw [List.map_cons, fuseAttempt_small]
  rfl

theorem fuseFromImpl_spec {w : Nat} {prof : Profile} {c0 maxIter : Nat} {fp0 : Nat → BitVec w}
    {keys : List U64} (hl : keys.length < 2 ^ 32) (hc : 102 ≤ c0) (hd : prof = .debug → keys.Nodup) :
    fuseFromImpl w prof c0 maxIter fp0 keys = .err .filterFailed ∨
    ∃ f, fuseFromImpl w prof c0 maxIter fp0 keys = .ok f ∧ f.segmentLength = c0 / 102 ∧
      f.fingerprints.length = 102 * (c0 / 102) ∧ keys.Nodup ∧
      ∀ k ∈ keys, SatF (c0 / 102) (fun i => f.fingerprints.getD i 0#w) (mix k f.seed) := by
  have hs : 0 < c0 / 102 := by omega
  have hcap : c0 / fuseSlots * fuseSlots = 102 * (c0 / 102) := by
    unfold fuseSlots; exact Nat.mul_comm _ _
  have hsl : 102 * (c0 / 102) / fuseSlots = c0 / 102 := by
    unfold fuseSlots; exact Nat.mul_div_cancel_left _ (by norm_num)
  unfold fuseFromImpl
  rw [if_neg (by rintro ⟨h, h'⟩; exact h' (hd h))]
  simp only [hcap, hsl]
  rcases fuseLoop_spec (prof := prof) hs hl maxIter (splitmix64 1#64).1 (splitmix64 1#64).2 with
    h | ⟨stk, seed, h1, h2, h3⟩
  · left; rw [h]; rfl
  · right
    obtain ⟨fp, e1, e2, e3⟩ := fuseAssign_ok (w := w) hs h3
      ((List.range (102 * (c0 / 102))).map fp0) (by simp)
    rw [h1, Res.bind_ok]
    simp only [e1, Res.bind_ok]
    refine ⟨_, rfl, rfl, e2, ?_, ?_⟩
    · have := h2.nodup_iff.1 h3.nodup
      exact this.of_map
    · intro k hk
      have hm : mix k seed ∈ stk.map KeyIndex.hash := h2.mem_iff.2 (List.mem_map.2 ⟨k, hk, rfl⟩)
      obtain ⟨e, he, hh⟩ := List.mem_map.1 hm
      rw [← hh]
      exact e3 e he

/-- Small capacities. -/
theorem fuseFromImpl_small {w : Nat} {prof : Profile} {c0 n : Nat} {fp0 : Nat → BitVec w}
    {k : U64} {keys : List U64} (hc : c0 < 102) :
    fuseFromImpl w prof c0 (n + 1) fp0 (k :: keys) = .panic := by
  have h0 : c0 / fuseSlots = 0 := Nat.div_eq_of_lt hc
  unfold fuseFromImpl
  split
  · rfl
  · simp only [h0, Nat.zero_mul, Nat.zero_div, fuseLoop_small]
    rfl

theorem fuse_contains_of_sat {w : Nat} {f : Fuse w} {k : U64} (hs : 0 < f.segmentLength)
    (hlen : f.fingerprints.length = 102 * f.segmentLength)
    (h : SatF f.segmentLength (fun i => f.fingerprints.getD i 0#w) (mix k f.seed)) :
    f.contains k = .ok true := by
  obtain ⟨_, hlt⟩ := fuseHset_spec hs (mix k f.seed)
  unfold fuseHset at hlt
  have l0 : (h012 (mix k f.seed) f.segmentLength).1 < f.fingerprints.length := by
    rw [hlen]; exact hlt _ (by simp)
  have l1 : (h012 (mix k f.seed) f.segmentLength).2.1 < f.fingerprints.length := by
    rw [hlen]; exact hlt _ (by simp)
  have l2 : (h012 (mix k f.seed) f.segmentLength).2.2 < f.fingerprints.length := by
    rw [hlen]; exact hlt _ (by simp)
  unfold SatF at h
  simp only at h
  rw [getD_lt l0, getD_lt l1, getD_lt l2] at h
  unfold Fuse.contains
  simp only [rd_ok l0, rd_ok l1, rd_ok l2, Res.bind_ok]
  rw [decide_eq_true h]

/-- **C43.** Fuse8/16/32 have no false negatives: if construction returns `Ok`, every input key is
reported as contained, for every fingerprint width, whatever the unused cells contain. -/
theorem C43_no_false_negatives (w : Nat) (prof : Profile) (c0 : Nat) (fp0 : Nat → BitVec w)
    (keys : List U64) (hl : keys.length < 2 ^ 32) (f : Fuse w)
    (hf : Fuse.tryFrom w prof c0 fp0 keys = .ok f) (k : U64) (hk : k ∈ keys) :
    f.contains k = .ok true := by
  unfold Fuse.tryFrom at hf
  by_cases hc : c0 < 102
  · cases keys with
    | nil => simp at hk
    | cons a keys =>
      rw [fuseFromImpl_small (n := 999) hc] at hf
      cases hf
  · have hd : prof = .debug → keys.Nodup := by
      intro hp
      by_contra hn
      unfold fuseFromImpl at hf
      rw [if_pos ⟨hp, hn⟩] at hf
      cases hf
    rcases fuseFromImpl_spec (maxIter := 1000) (c0 := c0) (fp0 := fp0) hl (by omega) hd with
      h | ⟨f', h1, h2, h3, _, h4⟩
    · rw [h] at hf; cases hf
    · rw [h1] at hf
      cases hf
      exact fuse_contains_of_sat (by omega) (by rw [h2]; exact h3) (by rw [h2]; exact h4 k hk)

/-- **C43 (totality).** With a capacity of at least 102 and (in debug builds) distinct keys, construction
never panics and never hangs: it returns the construction error or a filter of `c0 / 102 * 102` cells. -/
theorem C43_total (w : Nat) (prof : Profile) (c0 : Nat) (fp0 : Nat → BitVec w) (keys : List U64)
    (hl : keys.length < 2 ^ 32) (hc : 102 ≤ c0) (hd : prof = .debug → keys.Nodup) :
    Fuse.tryFrom w prof c0 fp0 keys = .err .filterFailed ∨
    ∃ f, Fuse.tryFrom w prof c0 fp0 keys = .ok f ∧ f.fingerprints.length = c0 / 102 * 102 := by
  rcases fuseFromImpl_spec (maxIter := 1000) (fp0 := fp0) hl hc hd with h | ⟨f, h1, _, h3, _⟩
  · exact Or.inl h
  · exact Or.inr ⟨f, h1, by omega⟩

/-- **C44.** Below a computed capacity of 102, construction never returns an error: a non-empty key set
panics (in every build), and the empty key set yields a filter on which every lookup panics. -/
theorem C44_small_inputs (w : Nat) (prof : Profile) (c0 : Nat) (hc : c0 < 102) (fp0 : Nat → BitVec w) :
    (∀ keys, keys ≠ [] → Fuse.tryFrom w prof c0 fp0 keys = .panic) ∧
    ∃ f, Fuse.tryFrom w prof c0 fp0 [] = .ok f ∧ ∀ k, f.contains k = .panic := by
  constructor
  · intro keys hk
    cases keys with
    | nil => exact absurd rfl hk
    | cons k keys => exact fuseFromImpl_small (n := 999) hc
  · have h0 : c0 / fuseSlots = 0 := Nat.div_eq_of_lt hc
    have ha : fuseAttempt prof 0 0 [] = .ok (some []) := by
      cases prof <;> decide
    have hloop : ∀ n rng seed, fuseLoop prof 0 0 [] (n + 1) rng seed = .ok ([], seed) := by
      intro n rng seed
      unfold fuseLoop
      rw [List.map_nil, ha]
      rfl
    have hall : ∀ n, fuseFromImpl w prof c0 (n + 1) fp0 [] =
        .ok { seed := (splitmix64 1#64).2, segmentLength := 0, fingerprints := [] } := by
      intro n
      unfold fuseFromImpl
      rw [if_neg (by simp)]
      simp only [h0, Nat.zero_mul, Nat.zero_div, hloop, Res.bind_ok, List.range_zero, List.map_nil,
        foldRes_nil]
    refine ⟨_, hall 999, ?_⟩
    intro k
    unfold Fuse.contains
    simp only
    rw [rd_panic (by simp)]
    rfl

/-- **C53.** In release builds a repeated key makes Fuse construction fail with the construction error,
after all attempts, for every capacity of at least 102. -/
theorem C53_fuse_duplicates (w : Nat) (c0 : Nat) (fp0 : Nat → BitVec w) (keys : List U64)
    (hl : keys.length < 2 ^ 32) (hc : 102 ≤ c0) (hdup : ¬ keys.Nodup) :
    Fuse.tryFrom w .release c0 fp0 keys = .err .filterFailed := by
  rcases fuseFromImpl_spec (maxIter := 1000) (prof := .release) (fp0 := fp0) hl hc (by simp) with
    h | ⟨f, _, _, _, h, _⟩
  · exact h
  · exact absurd h hdup

/-- Non-vacuity of C43: a construction that succeeds, and a lookup of a key that is not stored. -/
example : (Fuse.tryFrom 8 .debug 102 (fun i => BitVec.ofNat 8 (i * 37)) [1#64, 2#64, 3#64, 4#64]).isOk = true ∧
    (Fuse.tryFrom 8 .debug 102 (fun i => BitVec.ofNat 8 (i * 37)) [1#64, 2#64, 3#64, 4#64] >>=
      fun f => f.contains 3#64) = .ok true ∧
    (Fuse.tryFrom 8 .debug 102 (fun i => BitVec.ofNat 8 (i * 37)) [1#64, 2#64, 3#64, 4#64] >>=
      fun f => f.contains 9#64) = .ok false := by
  decide +kernel

/-- Non-vacuity of C44 and C53. -/
example : Fuse.tryFrom 8 .release 101 (fun _ => 0#8) [5#64] = .panic := by decide +kernel
example : ¬ [5#64, 6#64, 5#64].Nodup := by decide

end Chalamet
