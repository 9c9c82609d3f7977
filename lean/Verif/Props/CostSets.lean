import Verif.Props.Cost

/-! # C121: how many seeds the 64-bit-key filters try

One iteration of a retry loop hashes every key once; each uses the next seed of the splitmix sequence. -/

namespace Chalamet
open Spec

theorem bfxLoopC_fst (prof : Profile) (lay : Layout) (keys : List U64) (n : Nat) (rng seed : U64) (st : BState) :
    (bfxLoopC prof lay keys n rng seed st).1 = bfxLoop prof lay keys n rng seed st := by
  induction n generalizing rng seed st with
  | zero => rfl
  | succ n ih =>
    rw [bfxLoopC, bfxLoop, Counted.bind_fst]
    congr 1
    funext a
    cases a with
    | done stk => rfl
    | peelFailed st' => exact ih _ _ st'
    | countError st' => exact ih _ _ st'

theorem tryFromC_fst (w : Nat) (prof : Profile) (segExp cap0 : Nat) (fp0 : Nat → BitVec w) (keys : List U64) :
    (BinaryFuse.tryFromC w prof segExp cap0 fp0 keys).1 = BinaryFuse.tryFrom w prof segExp cap0 fp0 keys := by
  unfold BinaryFuse.tryFromC BinaryFuse.tryFrom bfuseXFromImpl
  split
  · rfl
  · rw [Counted.bind_fst, free_fst]
    congr 1
    funext lay
    rw [Counted.bind_fst, bfxLoopC_fst]
    congr 1
    funext r
    rw [Counted.bind_fst, free_fst]
    rfl

/-- The loop stops after the first seed that works. -/
theorem bfxLoopC_count {prof : Profile} {lay : Layout} {s : Nat} {keys : List U64} (hnd : keys.Nodup)
    (hg : lay.geom.WF lay.arrayLen s lay.segmentCount) :
    ∀ (n t : Nat), (∀ u, t ≤ u → u < t + n →
      (∀ v, t ≤ v → v < u → ¬ CanPeel (touchesX lay.geom (splitmixSeed 1#64 v)) keys) →
      Fits lay.geom (keys.map fun k => mix k (splitmixSeed 1#64 u))) →
    ((∀ u, t ≤ u → u < t + n → ¬ CanPeel (touchesX lay.geom (splitmixSeed 1#64 u)) keys) ∧
      (bfxLoopC prof lay keys n (splitmixState 1#64 (t + 1)) (splitmixSeed 1#64 t)
        (BState.init keys.length lay.arrayLen)).2 = n) ∨
    ∃ u, t ≤ u ∧ u < t + n ∧ CanPeel (touchesX lay.geom (splitmixSeed 1#64 u)) keys ∧
      (∀ v, t ≤ v → v < u → ¬ CanPeel (touchesX lay.geom (splitmixSeed 1#64 v)) keys) ∧
      (bfxLoopC prof lay keys n (splitmixState 1#64 (t + 1)) (splitmixSeed 1#64 t)
        (BState.init keys.length lay.arrayLen)).2 = u - t + 1 := by
  intro n
  induction n with
  | zero => intro t _; exact Or.inl ⟨fun u h1 h2 => by omega, rfl⟩
  | succ m ih =>
    intro t hload
    have hl : (keys.map fun k => mix k (splitmixSeed 1#64 t)).length = keys.length := by simp
    have hF := hload t le_rfl (by omega) (fun v h1 h2 => by omega)
    have hn := mix_nodup hnd (splitmixSeed 1#64 t)
    rcases attempt_ok (prof := prof) hg hl hF with ⟨stk, hA, hS⟩ | hA
    · right
      refine ⟨t, le_rfl, by omega, touchesX_canPeel.2 (hS.canPeel hn), fun v h1 h2 => by omega, ?_⟩
      rw [bfxLoopC, hA, Nat.sub_self]
      rfl
    · have hnot : ¬ CanPeel (touchesX lay.geom (splitmixSeed 1#64 t)) keys := by
        intro hc
        obtain ⟨stk, e⟩ := attempt_complete hg hl (Or.inr hF) hn (touchesX_canPeel.1 hc) hA
        cases e
      have e : (bfxLoopC prof lay keys (m + 1) (splitmixState 1#64 (t + 1)) (splitmixSeed 1#64 t)
          (BState.init keys.length lay.arrayLen)).2 =
          1 + (bfxLoopC prof lay keys m (splitmixState 1#64 (t + 1 + 1)) (splitmixSeed 1#64 (t + 1))
          (BState.init keys.length lay.arrayLen)).2 := by
        rw [bfxLoopC, hA]
        rfl
      rw [e]
      rcases ih (t + 1) (fun u h1 h2 h3 => hload u (by omega) (by omega) (fun v a b => by
          rcases Nat.eq_or_lt_of_le a with rfl | a
          · exact hnot
          · exact h3 v a b)) with
        ⟨h1, h2⟩ | ⟨u, h1, h2, h3, h4, h5⟩
      · left
        refine ⟨fun u a b => ?_, by omega⟩
        by_cases hu : u = t
        · rw [hu]; exact hnot
        · exact h1 u (by omega) (by omega)
      · right
        refine ⟨u, by omega, by omega, h3, fun v a b => ?_, by omega⟩
        by_cases hv : v = t
        · rw [hv]; exact hnot
        · exact h4 v (by omega) b

/-- **C121 (BinaryFuse8/16/32).** For distinct keys and no overloaded slot, `try_from` hashes and sorts the whole key set
`t + 1` times if seed number `t` is the first of the splitmix sequence under which the keys can be peeled, and 1000 times
if none of the first 1000 is. -/
theorem C121_binary_fuse (w : Nat) (prof : Profile) (segExp cap0 : Nat) (fp0 : Nat → BitVec w)
    (keys : List U64) (lay : Layout) (hlay : bfLayout keys.length segExp cap0 = .ok lay)
    (hnd : keys.Nodup)
    (hload : ∀ t < 1000, (∀ u < t, ¬ CanPeel (touchesX lay.geom (splitmixSeed 1#64 u)) keys) →
      ∀ s, slotLoadX lay.geom (splitmixSeed 1#64 t) keys s < 64) :
    (BinaryFuse.tryFromC w prof segExp cap0 fp0 keys).1 = BinaryFuse.tryFrom w prof segExp cap0 fp0 keys ∧
    (∀ t < 1000, CanPeel (touchesX lay.geom (splitmixSeed 1#64 t)) keys →
      (∀ u < t, ¬ CanPeel (touchesX lay.geom (splitmixSeed 1#64 u)) keys) →
      (BinaryFuse.tryFromC w prof segExp cap0 fp0 keys).2 = t + 1) ∧
    ((∀ t < 1000, ¬ CanPeel (touchesX lay.geom (splitmixSeed 1#64 t)) keys) →
      (BinaryFuse.tryFromC w prof segExp cap0 fp0 keys).2 = 1000) := by
  refine ⟨tryFromC_fst w prof segExp cap0 fp0 keys, ?_⟩
  obtain ⟨s, _, hg⟩ := bfLayout_wf hlay
  have hF : ∀ u, 0 ≤ u → u < 0 + 1000 →
      (∀ v, 0 ≤ v → v < u → ¬ CanPeel (touchesX lay.geom (splitmixSeed 1#64 v)) keys) →
      Fits lay.geom (keys.map fun k => mix k (splitmixSeed 1#64 u)) := by
    intro u _ hu hv x
    have := hload u (by omega) (fun v h => hv v (Nat.zero_le v) h) x
    rw [slotLoadX_eq] at this
    omega
  have e : (BinaryFuse.tryFromC w prof segExp cap0 fp0 keys).2 =
      (bfxLoopC prof lay keys 1000 (splitmixState 1#64 (0 + 1)) (splitmixSeed 1#64 0)
        (BState.init keys.length lay.arrayLen)).2 := by
    unfold BinaryFuse.tryFromC
    rw [if_neg (by rintro ⟨h1, h2⟩; exact h2 hnd), hlay, free_ok_bind,
      Counted.bind_snd_of_free _ _ fun r => by rw [Counted.bind_snd_of_free _ _ fun _ => rfl]; rfl]
    rfl
  rw [e]
  rcases bfxLoopC_count (prof := prof) hnd hg 1000 0 hF with ⟨h1, h2⟩ | ⟨u, h1, h2, h3, h4, h5⟩
  · exact ⟨fun t ht hp _ => absurd hp (h1 t (by omega) (by omega)), fun _ => h2⟩
  · refine ⟨fun t ht hp hf => ?_, fun h => absurd h3 (h u (by omega))⟩
    rcases Nat.lt_trichotomy u t with h | h | h
    · exact absurd h3 (hf u h)
    · subst h; exact h5
    · exact absurd hp (h4 t (by omega) h)

/-! ## Fuse -/

theorem fuseLoopC_fst (prof : Profile) (sl cap : Nat) (keys : List U64) (n : Nat) (rng seed : U64) :
    (fuseLoopC prof sl cap keys n rng seed).1 = fuseLoop prof sl cap keys n rng seed := by
  induction n generalizing rng seed with
  | zero => rfl
  | succ n ih =>
    rw [fuseLoopC, fuseLoop, Counted.bind_fst]
    congr 1
    funext a
    cases a with
    | some stk => rfl
    | none => exact ih _ _

theorem fuseTryFromC_fst (w : Nat) (prof : Profile) (c0 : Nat) (fp0 : Nat → BitVec w) (keys : List U64) :
    (Fuse.tryFromC w prof c0 fp0 keys).1 = Fuse.tryFrom w prof c0 fp0 keys := by
  unfold Fuse.tryFromC Fuse.tryFrom fuseFromImpl
  split
  · rfl
  · rw [Counted.bind_fst, fuseLoopC_fst]
    dsimp only
    congr 1
    funext r
    rw [Counted.bind_fst, free_fst]
    rfl

theorem fuseLoopC_count {prof : Profile} {sl : Nat} (hs : 0 < sl) {keys : List U64} (hnd : keys.Nodup)
    (hl : keys.length < 2 ^ 32) :
    ∀ n t : Nat,
    ((∀ u, t ≤ u → u < t + n → ¬ CanPeel (touchesF sl (splitmixSeed 1#64 u)) keys) ∧
      (fuseLoopC prof sl (102 * sl) keys n (splitmixState 1#64 (t + 1)) (splitmixSeed 1#64 t)).2 = n) ∨
    ∃ u, t ≤ u ∧ u < t + n ∧ CanPeel (touchesF sl (splitmixSeed 1#64 u)) keys ∧
      (∀ v, t ≤ v → v < u → ¬ CanPeel (touchesF sl (splitmixSeed 1#64 v)) keys) ∧
      (fuseLoopC prof sl (102 * sl) keys n (splitmixState 1#64 (t + 1)) (splitmixSeed 1#64 t)).2 = u - t + 1 := by
  intro n
  induction n with
  | zero => intro t; exact Or.inl ⟨fun u h1 h2 => by omega, rfl⟩
  | succ m ih =>
    intro t
    have hn := mix_nodup hnd (splitmixSeed 1#64 t)
    obtain ⟨r, h1, h2, h3⟩ := fuseAttempt_ok (prof := prof) hs
      (L := keys.map fun k => mix k (splitmixSeed 1#64 t)) (by simpa using hl)
    cases r with
    | some stk =>
      right
      refine ⟨t, le_rfl, by omega, ?_, fun v h1 h2 => by omega, ?_⟩
      · exact touchesF_canPeel.2 ((h2 stk rfl).2.1.canPeel.perm (h2 stk rfl).1.symm)
      · rw [fuseLoopC, h1, Nat.sub_self]; rfl
    | none =>
      have hnot : ¬ CanPeel (touchesF sl (splitmixSeed 1#64 t)) keys := by
        intro hc
        obtain ⟨stk, e⟩ := h3 hn (touchesF_canPeel.1 hc)
        cases e
      have e : (fuseLoopC prof sl (102 * sl) keys (m + 1) (splitmixState 1#64 (t + 1)) (splitmixSeed 1#64 t)).2 =
          1 + (fuseLoopC prof sl (102 * sl) keys m (splitmixState 1#64 (t + 1 + 1)) (splitmixSeed 1#64 (t + 1))).2 := by
        rw [fuseLoopC, h1]
        rfl
      rw [e]
      rcases ih (t + 1) with ⟨h1, h2⟩ | ⟨u, h1, h2, h3, h4, h5⟩
      · left
        refine ⟨fun u a b => ?_, by omega⟩
        by_cases hu : u = t
        · rw [hu]; exact hnot
        · exact h1 u (by omega) (by omega)
      · right
        refine ⟨u, by omega, by omega, h3, fun v a b => ?_, by omega⟩
        by_cases hv : v = t
        · rw [hv]; exact hnot
        · exact h4 v (by omega) b

/-- **C121 (Fuse8/16/32).** For distinct keys and a capacity of at least 102, `try_from` hashes the whole key set `t + 1`
times if seed number `t` is the first under which the keys can be peeled, and 1000 times if none of the first 1000 is. -/
theorem C121_fuse (w : Nat) (prof : Profile) (c0 : Nat) (hc : 102 ≤ c0) (fp0 : Nat → BitVec w)
    (keys : List U64) (hl : keys.length < 2 ^ 32) (hnd : keys.Nodup) :
    (Fuse.tryFromC w prof c0 fp0 keys).1 = Fuse.tryFrom w prof c0 fp0 keys ∧
    (∀ t < 1000, CanPeel (touchesF (c0 / 102) (splitmixSeed 1#64 t)) keys →
      (∀ u < t, ¬ CanPeel (touchesF (c0 / 102) (splitmixSeed 1#64 u)) keys) →
      (Fuse.tryFromC w prof c0 fp0 keys).2 = t + 1) ∧
    ((∀ t < 1000, ¬ CanPeel (touchesF (c0 / 102) (splitmixSeed 1#64 t)) keys) →
      (Fuse.tryFromC w prof c0 fp0 keys).2 = 1000) := by
  refine ⟨fuseTryFromC_fst w prof c0 fp0 keys, ?_⟩
  have hs : 0 < c0 / 102 := by omega
  have hcap : c0 / fuseSlots * fuseSlots = 102 * (c0 / 102) := by
    unfold fuseSlots; exact Nat.mul_comm _ _
  have hsl : 102 * (c0 / 102) / fuseSlots = c0 / 102 := by
    unfold fuseSlots; exact Nat.mul_div_cancel_left _ (by norm_num)
  have e : (Fuse.tryFromC w prof c0 fp0 keys).2 =
      (fuseLoopC prof (c0 / 102) (102 * (c0 / 102)) keys 1000 (splitmixState 1#64 (0 + 1)) (splitmixSeed 1#64 0)).2 := by
    unfold Fuse.tryFromC
    rw [if_neg (by rintro ⟨h1, h2⟩; exact h2 hnd), hcap, hsl,
      Counted.bind_snd_of_free _ _ fun r => by rw [Counted.bind_snd_of_free _ _ fun _ => rfl]; rfl]
    rfl
  rw [e]
  rcases fuseLoopC_count (prof := prof) hs hnd hl 1000 0 with ⟨h1, h2⟩ | ⟨u, h1, h2, h3, h4, h5⟩
  · exact ⟨fun t ht hp _ => absurd hp (h1 t (by omega) (by omega)), fun _ => h2⟩
  · refine ⟨fun t ht hp hf => ?_, fun h => absurd h3 (h u (by omega))⟩
    rcases Nat.lt_trichotomy u t with h | h | h
    · exact absurd h3 (hf u h)
    · subst h; exact h5
    · exact absurd hp (h4 t (by omega) h)

/-! ## Xor -/

theorem xorLoopC_fst (prof : Profile) (cap bl : Nat) (keys : List U64) (n : Nat) (rng seed : U64) :
    (xorLoopC prof cap bl keys n rng seed).1 = xorLoop prof cap bl keys n rng seed := by
  induction n generalizing rng seed with
  | zero => rfl
  | succ n ih =>
    rw [xorLoopC, xorLoop, Counted.bind_fst]
    congr 1
    funext a
    cases a with
    | some stk => rfl
    | none => exact ih _ _

theorem xorFromC_fst (w : Nat) (prof : Profile) (c0 : Nat) (keys : List U64) (n : Nat) :
    (Xor.fromWithinC w prof c0 keys n).1 = Xor.fromWithin w prof c0 keys n := by
  unfold Xor.fromWithinC Xor.fromWithin
  split
  · rfl
  · rw [Counted.bind_fst, xorLoopC_fst]
    dsimp only
    congr 1
    funext r
    rw [Counted.bind_fst, free_fst]
    rfl

theorem xorLoopC_count {prof : Profile} {bl : Nat} (hbl : 0 < bl) {keys : List U64} (hnd : keys.Nodup)
    (hl : keys.length < 2 ^ 32) :
    ∀ n t : Nat,
    ((∀ u, t ≤ u → u < t + n → ¬ CanPeel (touchesXor bl (splitmixSeed 1#64 u)) keys) ∧
      (xorLoopC prof (3 * bl) bl keys n (splitmixState 1#64 (t + 1)) (splitmixSeed 1#64 t)).2 = n) ∨
    ∃ u, t ≤ u ∧ u < t + n ∧ CanPeel (touchesXor bl (splitmixSeed 1#64 u)) keys ∧
      (∀ v, t ≤ v → v < u → ¬ CanPeel (touchesXor bl (splitmixSeed 1#64 v)) keys) ∧
      (xorLoopC prof (3 * bl) bl keys n (splitmixState 1#64 (t + 1)) (splitmixSeed 1#64 t)).2 = u - t + 1 := by
  intro n
  induction n with
  | zero => intro t; exact Or.inl ⟨fun u h1 h2 => by omega, rfl⟩
  | succ m ih =>
    intro t
    have hn := mix_nodup hnd (splitmixSeed 1#64 t)
    obtain ⟨r, h1, h2, h3⟩ := xorAttempt_ok (prof := prof) hbl
      (L := keys.map fun k => mix k (splitmixSeed 1#64 t)) (by simpa using hl)
    cases r with
    | some stk =>
      right
      refine ⟨t, le_rfl, by omega, ?_, fun v h1 h2 => by omega, ?_⟩
      · exact touchesXor_canPeel.2 ((h2 stk rfl).2.1.canPeel.perm (h2 stk rfl).1.symm)
      · rw [xorLoopC, h1, Nat.sub_self]; rfl
    | none =>
      have hnot : ¬ CanPeel (touchesXor bl (splitmixSeed 1#64 t)) keys := by
        intro hc
        obtain ⟨stk, e⟩ := h3 hn (touchesXor_canPeel.1 hc)
        cases e
      have e : (xorLoopC prof (3 * bl) bl keys (m + 1) (splitmixState 1#64 (t + 1)) (splitmixSeed 1#64 t)).2 =
          1 + (xorLoopC prof (3 * bl) bl keys m (splitmixState 1#64 (t + 1 + 1)) (splitmixSeed 1#64 (t + 1))).2 := by
        rw [xorLoopC, h1]
        rfl
      rw [e]
      rcases ih (t + 1) with ⟨h1, h2⟩ | ⟨u, h1, h2, h3, h4, h5⟩
      · left
        refine ⟨fun u a b => ?_, by omega⟩
        by_cases hu : u = t
        · rw [hu]; exact hnot
        · exact h1 u (by omega) (by omega)
      · right
        refine ⟨u, by omega, by omega, h3, fun v a b => ?_, by omega⟩
        by_cases hv : v = t
        · rw [hv]; exact hnot
        · exact h4 v (by omega) b

/-- **C121 (Xor8/16/32).** For distinct keys, `from` hashes the whole key set `t + 1` times if seed number `t` is the first
under which the keys can be peeled; if none is, it never stops: it has made `n` passes for every `n`. -/
theorem C121_xor (w : Nat) (prof : Profile) (c0 : Nat) (keys : List U64) (hl : keys.length < 2 ^ 32)
    (hnd : keys.Nodup) (n : Nat) :
    (Xor.fromWithinC w prof c0 keys n).1 = Xor.fromWithin w prof c0 keys n ∧
    (∀ t < n, CanPeel (touchesXor ((c0 + 32) / 3) (splitmixSeed 1#64 t)) keys →
      (∀ u < t, ¬ CanPeel (touchesXor ((c0 + 32) / 3) (splitmixSeed 1#64 u)) keys) →
      (Xor.fromWithinC w prof c0 keys n).2 = t + 1) ∧
    ((∀ t < n, ¬ CanPeel (touchesXor ((c0 + 32) / 3) (splitmixSeed 1#64 t)) keys) →
      (Xor.fromWithinC w prof c0 keys n).2 = n) := by
  refine ⟨xorFromC_fst w prof c0 keys n, ?_⟩
  have hbl : 0 < (c0 + 32) / 3 := by omega
  have hcap : (c0 + 32) / 3 * 3 = 3 * ((c0 + 32) / 3) := Nat.mul_comm _ _
  have hb : 3 * ((c0 + 32) / 3) / 3 = (c0 + 32) / 3 := by omega
  have e : (Xor.fromWithinC w prof c0 keys n).2 =
      (xorLoopC prof (3 * ((c0 + 32) / 3)) ((c0 + 32) / 3) keys n (splitmixState 1#64 (0 + 1)) (splitmixSeed 1#64 0)).2 := by
    unfold Xor.fromWithinC
    rw [if_neg (by rintro ⟨h1, h2⟩; exact h2 hnd), hcap, hb,
      Counted.bind_snd_of_free _ _ fun r => by rw [Counted.bind_snd_of_free _ _ fun _ => rfl]; rfl]
    rfl
  rw [e]
  rcases xorLoopC_count (prof := prof) hbl hnd hl n 0 with ⟨h1, h2⟩ | ⟨u, h1, h2, h3, h4, h5⟩
  · exact ⟨fun t ht hp _ => absurd hp (h1 t (by omega) (by omega)), fun _ => h2⟩
  · refine ⟨fun t ht hp hf => ?_, fun h => absurd h3 (h u (by omega))⟩
    rcases Nat.lt_trichotomy u t with h | h | h
    · exact absurd h3 (hf u h)
    · subst h; exact h5
    · exact absurd hp (h4 t (by omega) h)

/-- A pair of keys for which the first seed works, and one for which only the second does. -/
example : (BinaryFuse.tryFromC 8 .debug 2 12 (fun _ => 0#8) [1#64, 2#64]).2 = 1 ∧
    (BinaryFuse.tryFromC 8 .debug 2 12 (fun _ => 0#8) [1#64, 98#64]).2 = 2 := by decide +kernel

example : (Xor.fromWithinC 8 .debug 2 [1#64, 2#64] 8).2 = 1 ∧ (Xor.fromWithinC 8 .debug 2 [1#64, 771#64] 8).2 = 2 := by
  decide +kernel

example : (Fuse.tryFromC 8 .debug 113 (fun _ => 0#8) [1#64, 2#64, 3#64]).2 = 1 := by decide +kernel

/-- The hypotheses of `C121_binary_fuse` hold for these two pairs. -/
example : ∃ lay, bfLayout 2 2 12 = .ok lay ∧ ∀ (k₁ k₂ : U64) (t s : Nat),
    slotLoadX lay.geom (splitmixSeed 1#64 t) [k₁, k₂] s < 64 := by
  refine ⟨_, rfl, fun k₁ k₂ t s => slotLoadX_lt_of_length _ _ _ (by simp) s⟩

end Chalamet
