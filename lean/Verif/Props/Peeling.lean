import Verif.Props.Filter
import Verif.Props.BFuse
import Verif.Props.Fuse
import Verif.Props.Xor

/-!
# C57: when filter construction succeeds

`Spec.CanPeel touch keys` says that the keys can be ordered so that every key touches a slot which no later
key touches. Construction succeeds exactly for key sets that can be peeled; the peeling queue of the code
never gives up early and never depends on the order in which it meets the keys.
-/

namespace Chalamet

namespace Spec

/-- A *core*: a non-empty collection of the keys in which no slot is touched by exactly one key. -/
def HasCore {α β : Type} (touch : α → β → Prop) (keys : List α) : Prop :=
  ∃ core : List α, core ≠ [] ∧ (∀ k ∈ core, k ∈ keys) ∧
    ∀ k ∈ core, ∀ s, touch k s → ∃ k' ∈ core, k' ≠ k ∧ touch k' s

/-- Keys without repetition can be peeled iff they have no core. -/
theorem canPeel_iff_no_core {α β : Type} (touch : α → β → Prop) (keys : List α) (hn : keys.Nodup) :
    CanPeel touch keys ↔ ¬ HasCore touch keys := by
  constructor
  · rintro h ⟨core, hne, hsub, hcore⟩
    obtain ⟨k, s, hk, hs, hu⟩ := h.exists_free hne hsub
    obtain ⟨k', hk', hne', ht⟩ := hcore k hk s hs
    exact hu k' hk' hne' ht
  · intro h
    generalize hm : keys.length = m
    induction m generalizing keys with
    | zero =>
      have : keys = [] := List.length_eq_zero_iff.1 hm
      subst this
      exact ⟨[], List.Perm.refl _, trivial⟩
    | succ m ih =>
      have hne : keys ≠ [] := by rintro rfl; simp at hm
      have hfree : ∃ k ∈ keys, ∃ s, touch k s ∧ ∀ k' ∈ keys, k' ≠ k → ¬ touch k' s := by
        by_contra hc
        push Not at hc
        exact h ⟨keys, hne, fun _ h => h, fun k hk s hs => hc k hk s hs⟩
      obtain ⟨k, hk, s, hs, hu⟩ := hfree
      obtain ⟨l₁, l₂, rfl⟩ := List.append_of_mem hk
      have hp : (l₁ ++ k :: l₂).Perm (k :: (l₁ ++ l₂)) := List.perm_middle
      have hn' := List.nodup_cons.1 (hp.nodup_iff.1 hn)
      obtain ⟨o, ho1, ho2⟩ := ih (l₁ ++ l₂) hn'.2
        (by
          rintro ⟨core, h1, h2, h3⟩
          exact h ⟨core, h1, fun x hx => hp.mem_iff.2 (List.mem_cons_of_mem _ (h2 x hx)), h3⟩)
        (by have := hp.length_eq; rw [hm, List.length_cons] at this; omega)
      refine ⟨k :: o, (ho1.cons k).trans hp.symm, ⟨s, hs, ?_⟩, ho2⟩
      intro k' hk'
      have hk'' := ho1.mem_iff.1 hk'
      refine hu k' (hp.mem_iff.2 (List.mem_cons_of_mem _ hk'')) ?_
      rintro rfl
      exact hn'.1 hk''

end Spec

/-! ## The key-value filter -/

/-- Slot `s` is one of the three slots that `hash_eval` gives for the key (for geometries of the constructor it gives
the same in both build profiles, `hashOfHashC_ok`). -/
def touchesP (seed : List U8) (g : Geom) (k : Key) (s : Nat) : Prop :=
  ∃ l, BinaryFuseP32.hashEval .release k seed g = .ok l ∧ s ∈ l

theorem touchesP_iff {seed : List U8} {g : Geom} {k : Key} {h : U64} (hh : mix256 k seed = .ok h)
    (s : Nat) : on g s h = true ↔ touchesP seed g k s := by
  unfold touchesP BinaryFuseP32.hashEval on slotN
  simp [hh, hashOfHashC_release]

/-- **C57 (key-value filter).** On well-formed input with pairwise different hashes and no overloaded slot
(the hypotheses of C29), `from_slice` returns a filter if and only if the keys can be peeled with respect
to the slots that `hash_eval` reports for them. -/
theorem C57_kv_filter (prof : Profile) (segExp cap0 : Nat) (fp0 : Nat → U32) (seed : List U8)
    (keys : List Key) (data : List U32) (label ptxtMod : U64) (lay : Layout)
    (hlay : bfLayout keys.length segExp cap0 = .ok lay)
    (hseed : seed.length = 32) (hdata : data.length = keys.length)
    (hp0 : 0 < ptxtMod.toNat) (hp : ptxtMod.toNat < 2 ^ 32)
    (hdebug : prof = .debug → 256 ≤ ptxtMod.toNat)
    (hload : ∀ s, slotLoad seed lay.geom keys s < 64)
    (hdist : (keys.map fun k => mix256 k seed).Nodup) :
    (∃ f, BinaryFuseP32.fromSlice prof segExp cap0 fp0 seed keys data label ptxtMod = .ok f) ↔
    Spec.CanPeel (touchesP seed lay.geom) keys := by
  obtain ⟨s, _, hg⟩ := bfLayout_wf hlay
  choose gh hgh using mix256_total hseed
  have hh : mapRes (fun k => mix256 k seed) keys = .ok (keys.map gh) :=
    mapRes_ok_of_forall fun k _ => hgh k
  have hl : (keys.map gh).length = keys.length := by simp
  have hF := (fits_iff (g := lay.geom) hh).2 hload
  have hinj : (keys.map gh).Nodup := by
    have e : (keys.map fun k => mix256 k seed) = (keys.map gh).map Res.ok := by
      rw [List.map_map]
      exact List.map_congr_left fun k _ => hgh k
    rw [e] at hdist
    exact hdist.of_map
  have hnd : keys.Nodup := hinj.of_map
  have hiff : Spec.CanPeel (touchesP seed lay.geom) keys ↔
      Spec.CanPeel (fun h s => on lay.geom s h = true) (keys.map gh) := by
    rw [Spec.CanPeel.map]
    have : (fun k s => on lay.geom s (gh k) = true) = touchesP seed lay.geom := by
      funext k s
      exact propext (touchesP_iff (hgh k) s)
    rw [this]
  rw [hiff]
  unfold BinaryFuseP32.fromSlice
  rw [if_neg (by omega), bfusePFromImpl_eq, if_neg (by
    rintro ⟨h1, h2⟩
    have := hdebug h1
    rcases h2 with h2 | h2
    · exact h2 hnd
    · omega), hlay]
  simp only [Res.bind_ok, hh]
  rw [if_neg (by omega)]
  obtain ⟨m, hm⟩ : ∃ m, bfpMaxIter = m + 1 := ⟨99999, rfl⟩
  constructor
  · rintro ⟨f, hf⟩
    obtain ⟨stk, hb, _⟩ := Res.bind_eq_ok.1 hf
    rcases bfpLoop_spec (prof := prof) hg hl (Or.inr hF) with ⟨stk, hS, _⟩ | hb' | ⟨_, hn, _⟩
    · exact hS.canPeel hinj
    · rw [hb'] at hb; cases hb
    · exact absurd hF hn
  · intro hpeel
    rcases bfpLoop_spec (prof := prof) hg hl (Or.inr hF) with ⟨stk, hS, hb⟩ | hb | ⟨_, hn, _⟩
    · obtain ⟨fp, e1, e2⟩ := assignP_total (data := data) (label := label) (ptxtMod := ptxtMod)
        (fun h => slotsOk hg h) hS (by omega) (setWidth_ne_zero hp0 hp)
        ((List.range lay.arrayLen).map fp0) (by simp)
      rw [hb _ (by omega), Res.bind_ok, e1, Res.bind_ok]
      exact ⟨_, rfl⟩
    · exfalso
      rcases attempt_ok (prof := prof) hg hl hF with ⟨stk, hA, _⟩ | hA
      · have := hb 1
        rw [bfpLoop, hA] at this
        cases this
      · obtain ⟨stk, e⟩ := attempt_complete hg hl (Or.inr hF) hinj hpeel hA
        cases e
    · exact absurd hF hn

/-- **C57 (key-value filter, failure).** Under the same hypotheses construction fails with the construction
error exactly when some non-empty set of the keys forms a core: none of its slots is touched by only one of
its keys. -/
theorem C57_kv_filter_failure (prof : Profile) (segExp cap0 : Nat) (fp0 : Nat → U32) (seed : List U8)
    (keys : List Key) (data : List U32) (label ptxtMod : U64) (lay : Layout)
    (hlay : bfLayout keys.length segExp cap0 = .ok lay)
    (hseed : seed.length = 32) (hdata : data.length = keys.length)
    (hp0 : 0 < ptxtMod.toNat) (hp : ptxtMod.toNat < 2 ^ 32)
    (hdebug : prof = .debug → 256 ≤ ptxtMod.toNat)
    (hload : ∀ s, slotLoad seed lay.geom keys s < 64)
    (hdist : (keys.map fun k => mix256 k seed).Nodup) :
    BinaryFuseP32.fromSlice prof segExp cap0 fp0 seed keys data label ptxtMod = .err .filterFailed ↔
    Spec.HasCore (touchesP seed lay.geom) keys := by
  have hnd : keys.Nodup := hdist.of_map
  have h1 := C57_kv_filter prof segExp cap0 fp0 seed keys data label ptxtMod lay hlay hseed hdata hp0 hp
    hdebug hload hdist
  rw [Spec.canPeel_iff_no_core _ _ hnd] at h1
  have h2 := C29_total prof segExp cap0 fp0 seed keys data label ptxtMod lay hlay hseed hdata hp0 hp
    (fun h => ⟨hnd, hdebug h⟩) hload
  constructor
  · intro he
    by_contra hc
    obtain ⟨f, hf⟩ := h1.2 hc
    rw [hf] at he
    cases he
  · intro hc
    rcases h2 with ⟨f, hf, _⟩ | h
    · exact absurd hc (h1.1 ⟨f, hf⟩)
    · exact h

/-- Two distinct keys with the same three slots. -/
def exCore : List Key := [[1#64, 2#64, 3#64, 4#64], [71#64, 0#64, 0#64, 0#64]]

/-- Non-vacuity of the failure side: with the sizes the library computes for two keys (segment length 4,
12 slots) these two keys share all their slots, so under this seed every construction fails, whatever the
data and however often it is retried; the success side is met by `exKeys` in `C29`'s example. -/
theorem exCore_stuck : ∃ lay, bfLayout exCore.length 2 12 = .ok lay ∧ lay.arrayLen = 12 ∧
    (exCore.map fun k => mix256 k exSeed).Nodup ∧ Spec.HasCore (touchesP exSeed lay.geom) exCore ∧
    ∀ fp0 d₁ d₂ label, BinaryFuseP32.fromSlice .debug 2 12 fp0 exSeed exCore [d₁, d₂] label 1024#64 =
      .err .filterFailed := by
  obtain ⟨lay, hlay, harr⟩ : ∃ lay, bfLayout exCore.length 2 12 = .ok lay ∧
      lay = { geom := { segmentLength := 4#32, segmentLengthMask := 3#32, segmentCountLength := 4#32 },
              arrayLen := 12, segmentCount := 1 } := ⟨_, by decide +kernel, rfl⟩
  have hd : (exCore.map fun k => mix256 k exSeed).Nodup := by decide +kernel
  have h1 : BinaryFuseP32.hashEval .release [1#64, 2#64, 3#64, 4#64] exSeed lay.geom = .ok [0, 6, 11] := by
    subst harr; decide +kernel
  have h2 : BinaryFuseP32.hashEval .release [71#64, 0#64, 0#64, 0#64] exSeed lay.geom = .ok [0, 6, 11] := by
    subst harr; decide +kernel
  have ht : touchesP exSeed lay.geom [1#64, 2#64, 3#64, 4#64] =
      touchesP exSeed lay.geom [71#64, 0#64, 0#64, 0#64] := by
    funext s
    exact congrArg (fun r : Res (List Nat) => ∃ l, r = .ok l ∧ s ∈ l) (h1.trans h2.symm)
  have hcore : Spec.HasCore (touchesP exSeed lay.geom) exCore := by
    refine ⟨exCore, by simp [exCore], fun _ h => h, ?_⟩
    intro k hk s hs
    simp only [exCore, List.mem_cons, List.not_mem_nil, or_false] at hk
    rcases hk with rfl | rfl
    · exact ⟨[71#64, 0#64, 0#64, 0#64], by simp [exCore], by decide, (congrFun ht s).mp hs⟩
    · exact ⟨[1#64, 2#64, 3#64, 4#64], by simp [exCore], by decide, (congrFun ht s).mpr hs⟩
  refine ⟨lay, hlay, by rw [harr], hd, hcore, ?_⟩
  intro fp0 d₁ d₂ label
  exact (C57_kv_filter_failure .debug 2 12 fp0 exSeed exCore [d₁, d₂] label 1024#64 lay hlay (by decide)
    rfl (by decide) (by decide) (by intro _; decide)
    (slotLoad_lt_of_length _ _ _ (by decide)) hd).2 hcore

theorem slotLoad_perm {seed : List U8} {g : Geom} {keys keys' : List Key} (h : keys'.Perm keys) (s : Nat) :
    slotLoad seed g keys' s = slotLoad seed g keys s := by
  unfold slotLoad
  exact (h.filter _).length_eq

/-- **C57 (order).** Under the same hypotheses, listing the keys in another order, with whatever data, cannot
turn success into failure. -/
theorem C57_order_irrelevant (prof : Profile) (segExp cap0 : Nat) (fp0 fp0' : Nat → U32) (seed : List U8)
    (keys keys' : List Key) (hperm : keys'.Perm keys) (data data' : List U32)
    (label label' ptxtMod : U64) (lay : Layout)
    (hlay : bfLayout keys.length segExp cap0 = .ok lay)
    (hseed : seed.length = 32) (hdata : data.length = keys.length) (hdata' : data'.length = keys'.length)
    (hp0 : 0 < ptxtMod.toNat) (hp : ptxtMod.toNat < 2 ^ 32)
    (hdebug : prof = .debug → 256 ≤ ptxtMod.toNat)
    (hload : ∀ s, slotLoad seed lay.geom keys s < 64)
    (hdist : (keys.map fun k => mix256 k seed).Nodup) :
    (∃ f, BinaryFuseP32.fromSlice prof segExp cap0 fp0 seed keys data label ptxtMod = .ok f) ↔
    ∃ f, BinaryFuseP32.fromSlice prof segExp cap0 fp0' seed keys' data' label' ptxtMod = .ok f := by
  rw [C57_kv_filter prof segExp cap0 fp0 seed keys data label ptxtMod lay hlay hseed hdata hp0 hp
      hdebug hload hdist,
    C57_kv_filter prof segExp cap0 fp0' seed keys' data' label' ptxtMod lay
      (by rw [hperm.length_eq]; exact hlay) hseed hdata' hp0 hp hdebug
      (fun s => by rw [slotLoad_perm hperm]; exact hload s)
      ((hperm.map _).nodup_iff.2 hdist)]
  exact ⟨fun h => h.perm hperm, fun h => h.perm hperm.symm⟩

/-! ## BinaryFuse8/16/32 -/

/-- Slot `s` is one of the three slots of the key under a seed, in a binary fuse filter. -/
def touchesX (g : Geom) (seed k : U64) (s : Nat) : Prop :=
  s = (hashOfHash (mix k seed) g).1.toNat ∨ s = (hashOfHash (mix k seed) g).2.1.toNat ∨
    s = (hashOfHash (mix k seed) g).2.2.toNat

theorem touchesX_canPeel {g : Geom} {seed : U64} {keys : List U64} :
    Spec.CanPeel (touchesX g seed) keys ↔
      Spec.CanPeel (fun h s => on g s h = true) (keys.map fun k => mix k seed) := by
  rw [Spec.CanPeel.map]
  have : (fun k s => on g s (mix k seed) = true) = touchesX g seed := by
    funext k s
    unfold on touchesX slotN
    simp only [decide_eq_true_eq]
  rw [this]

theorem mix_nodup {keys : List U64} (h : keys.Nodup) (seed : U64) :
    (keys.map fun k => mix k seed).Nodup :=
  h.map (C32_mix_bijective seed).1

/-- The retry loop stops at the first seed under which the keys can be peeled. -/
theorem bfxLoop_first {prof : Profile} {lay : Layout} {s : Nat} {keys : List U64} (hnd : keys.Nodup)
    (hg : lay.geom.WF lay.arrayLen s lay.segmentCount) :
    ∀ (n t : Nat), (∀ u, t ≤ u → u < t + n →
      (∀ v, t ≤ v → v < u → ¬ Spec.CanPeel (touchesX lay.geom (splitmixSeed 1#64 v)) keys) →
      Fits lay.geom (keys.map fun k => mix k (splitmixSeed 1#64 u))) →
    ((∀ u, t ≤ u → u < t + n → ¬ Spec.CanPeel (touchesX lay.geom (splitmixSeed 1#64 u)) keys) ∧
      bfxLoop prof lay keys n (splitmixState 1#64 (t + 1)) (splitmixSeed 1#64 t)
        (BState.init keys.length lay.arrayLen) = .err .filterFailed) ∨
    ∃ stk u, t ≤ u ∧ u < t + n ∧ Spec.CanPeel (touchesX lay.geom (splitmixSeed 1#64 u)) keys ∧
      (∀ v, t ≤ v → v < u → ¬ Spec.CanPeel (touchesX lay.geom (splitmixSeed 1#64 v)) keys) ∧
      Solved lay.geom (keys.map fun k => mix k (splitmixSeed 1#64 u)) stk ∧
      bfxLoop prof lay keys n (splitmixState 1#64 (t + 1)) (splitmixSeed 1#64 t)
        (BState.init keys.length lay.arrayLen) = .ok (stk, splitmixSeed 1#64 u) := by
  intro n
  induction n with
  | zero => intro t _; exact Or.inl ⟨fun u h1 h2 => by omega, rfl⟩
  | succ m ih =>
    intro t hload
    have hl : (keys.map fun k => mix k (splitmixSeed 1#64 t)).length = keys.length := by simp
    have hF := hload t le_rfl (by omega) (fun v h1 h2 => by omega)
    have hn := mix_nodup hnd (splitmixSeed 1#64 t)
    rcases attempt_ok (prof := prof) hg hl hF with ⟨stk, hA, hS⟩ | hA
    · right
      refine ⟨stk, t, le_rfl, by omega, touchesX_canPeel.2 (hS.canPeel hn), fun v h1 h2 => by omega, hS, ?_⟩
      rw [bfxLoop, hA]
      rfl
    · have hnot : ¬ Spec.CanPeel (touchesX lay.geom (splitmixSeed 1#64 t)) keys := by
        intro hc
        obtain ⟨stk, e⟩ := attempt_complete hg hl (Or.inr hF) hn (touchesX_canPeel.1 hc) hA
        cases e
      have e : bfxLoop prof lay keys (m + 1) (splitmixState 1#64 (t + 1)) (splitmixSeed 1#64 t)
          (BState.init keys.length lay.arrayLen) =
          bfxLoop prof lay keys m (splitmixState 1#64 (t + 1 + 1)) (splitmixSeed 1#64 (t + 1))
          (BState.init keys.length lay.arrayLen) := by
        rw [bfxLoop, hA]
        rfl
      rw [e]
      rcases ih (t + 1) (fun u h1 h2 h3 => hload u (by omega) (by omega) (fun v a b => by
          rcases Nat.eq_or_lt_of_le a with rfl | a
          · exact hnot
          · exact h3 v a b)) with
        ⟨h1, h2⟩ | ⟨stk, u, h1, h2, h3, h4, h5, h6⟩
      · left
        refine ⟨fun u a b => ?_, h2⟩
        by_cases hu : u = t
        · rw [hu]; exact hnot
        · exact h1 u (by omega) (by omega)
      · right
        refine ⟨stk, u, by omega, by omega, h3, fun v a b => ?_, h5, h6⟩
        by_cases hv : v = t
        · rw [hv]; exact hnot
        · exact h4 v (by omega) b

/-- **C57 (BinaryFuse8/16/32).** For distinct keys and no overloaded slot (in the rounds that are reached), `try_from` returns a filter if and
only if the keys can be peeled under one of the first 1000 seeds of the splitmix sequence, and the filter
carries the first such seed; otherwise it returns the construction error. -/
theorem C57_binary_fuse (w : Nat) (prof : Profile) (segExp cap0 : Nat) (fp0 : Nat → BitVec w)
    (keys : List U64) (lay : Layout) (hlay : bfLayout keys.length segExp cap0 = .ok lay)
    (hnd : keys.Nodup)
    (hload : ∀ t < 1000, (∀ u < t, ¬ Spec.CanPeel (touchesX lay.geom (splitmixSeed 1#64 u)) keys) →
      ∀ s, slotLoadX lay.geom (splitmixSeed 1#64 t) keys s < 64) :
    (∃ f t, BinaryFuse.tryFrom w prof segExp cap0 fp0 keys = .ok f ∧ t < 1000 ∧
      f.seed = splitmixSeed 1#64 t ∧
      Spec.CanPeel (touchesX lay.geom (splitmixSeed 1#64 t)) keys ∧
      ∀ u < t, ¬ Spec.CanPeel (touchesX lay.geom (splitmixSeed 1#64 u)) keys) ∨
    (BinaryFuse.tryFrom w prof segExp cap0 fp0 keys = .err .filterFailed ∧
      ∀ u < 1000, ¬ Spec.CanPeel (touchesX lay.geom (splitmixSeed 1#64 u)) keys) := by
  obtain ⟨s, _, hg⟩ := bfLayout_wf hlay
  have hF : ∀ u, 0 ≤ u → u < 0 + 1000 →
      (∀ v, 0 ≤ v → v < u → ¬ Spec.CanPeel (touchesX lay.geom (splitmixSeed 1#64 v)) keys) →
      Fits lay.geom (keys.map fun k => mix k (splitmixSeed 1#64 u)) := by
    intro u _ hu hv x
    have := hload u (by omega) (fun v h => hv v (Nat.zero_le v) h) x
    rw [slotLoadX_eq] at this
    omega
  unfold BinaryFuse.tryFrom
  rw [bfuseXFromImpl_eq, if_neg (by rintro ⟨h1, h2⟩; exact h2 hnd), hlay, Res.bind_ok]
  rcases bfxLoop_first (prof := prof) hnd hg 1000 0 hF with ⟨h1, h2⟩ | ⟨stk, u, h1, h2, h3, h4, h5, h6⟩
  · right
    simp only [Nat.zero_add] at h2
    rw [h2]
    exact ⟨rfl, fun u hu => h1 u (by omega) (by omega)⟩
  · left
    obtain ⟨fp, e1, e2, e3⟩ := assignX_ok (fun h => slotsOk hg h) h5
      ((List.range lay.arrayLen).map fp0) (by simp)
    simp only [Nat.zero_add] at h6
    rw [h6, Res.bind_ok, e1]
    exact ⟨_, u, rfl, by omega, rfl, h3, fun v hv => h4 v (by omega) hv⟩

/-! ## Fuse8/16/32 -/

/-- Slot `s` is one of the three slots of the key under a seed, in a Fuse filter of segment length `sl`. -/
def touchesF (sl : Nat) (seed k : U64) (s : Nat) : Prop := s ∈ fuseHset sl (mix k seed)

theorem touchesF_canPeel {sl : Nat} {seed : U64} {keys : List U64} :
    Spec.CanPeel (touchesF sl seed) keys ↔
      Spec.CanPeel (fun h i => fuseOn sl i h = true) (keys.map fun k => mix k seed) := by
  rw [Spec.CanPeel.map]
  have : (fun k i => fuseOn sl i (mix k seed) = true) = touchesF sl seed := by
    funext k s
    unfold fuseOn touchesF
    simp only [decide_eq_true_eq]
  rw [this]

theorem fuseLoop_first {prof : Profile} {sl : Nat} (hs : 0 < sl) {keys : List U64} (hnd : keys.Nodup)
    (hl : keys.length < 2 ^ 32) :
    ∀ n t : Nat,
    ((∀ u, t ≤ u → u < t + n → ¬ Spec.CanPeel (touchesF sl (splitmixSeed 1#64 u)) keys) ∧
      fuseLoop prof sl (102 * sl) keys n (splitmixState 1#64 (t + 1)) (splitmixSeed 1#64 t) =
        .err .filterFailed) ∨
    ∃ stk u, t ≤ u ∧ u < t + n ∧ Spec.CanPeel (touchesF sl (splitmixSeed 1#64 u)) keys ∧
      (∀ v, t ≤ v → v < u → ¬ Spec.CanPeel (touchesF sl (splitmixSeed 1#64 v)) keys) ∧
      PeelOrder (fuseOn sl) stk ∧
      fuseLoop prof sl (102 * sl) keys n (splitmixState 1#64 (t + 1)) (splitmixSeed 1#64 t) =
        .ok (stk, splitmixSeed 1#64 u) := by
  intro n
  induction n with
  | zero => intro t; exact Or.inl ⟨fun u h1 h2 => by omega, rfl⟩
  | succ m ih =>
    intro t
    have hn := mix_nodup hnd (splitmixSeed 1#64 t)
    obtain ⟨r, h1, h2, h3⟩ := fuseAttempt_ok (prof := prof) hs
      (L := keys.map fun k => mix k (splitmixSeed 1#64 t)) (by simpa using hl)
    unfold fuseLoop
    rw [h1, Res.bind_ok]
    cases r with
    | some stk =>
      right
      refine ⟨stk, t, le_rfl, by omega, ?_, fun v h1 h2 => by omega, (h2 stk rfl).2.1, rfl⟩
      exact touchesF_canPeel.2 ((h2 stk rfl).2.1.canPeel.perm (h2 stk rfl).1.symm)
    | none =>
      have hnot : ¬ Spec.CanPeel (touchesF sl (splitmixSeed 1#64 t)) keys := by
        intro hc
        obtain ⟨stk, e⟩ := h3 hn (touchesF_canPeel.1 hc)
        cases e
      rcases ih (t + 1) with ⟨h1, h2⟩ | ⟨stk, u, h1, h2, h3, h4, h5, h6⟩
      · left
        refine ⟨fun u a b => ?_, h2⟩
        by_cases hu : u = t
        · rw [hu]; exact hnot
        · exact h1 u (by omega) (by omega)
      · right
        refine ⟨stk, u, by omega, by omega, h3, fun v a b => ?_, h5, h6⟩
        by_cases hv : v = t
        · rw [hv]; exact hnot
        · exact h4 v (by omega) b

/-- **C57 (Fuse8/16/32).** For distinct keys and a capacity of at least 102, `try_from` returns a filter if and
only if the keys can be peeled under one of the first 1000 seeds of the splitmix sequence, and the filter
carries the first such seed; otherwise it returns the construction error. -/
theorem C57_fuse (w : Nat) (prof : Profile) (c0 : Nat) (hc : 102 ≤ c0) (fp0 : Nat → BitVec w)
    (keys : List U64) (hl : keys.length < 2 ^ 32) (hnd : keys.Nodup) :
    (∃ f t, Fuse.tryFrom w prof c0 fp0 keys = .ok f ∧ t < 1000 ∧ f.seed = splitmixSeed 1#64 t ∧
      Spec.CanPeel (touchesF (c0 / 102) (splitmixSeed 1#64 t)) keys ∧
      ∀ u < t, ¬ Spec.CanPeel (touchesF (c0 / 102) (splitmixSeed 1#64 u)) keys) ∨
    (Fuse.tryFrom w prof c0 fp0 keys = .err .filterFailed ∧
      ∀ u < 1000, ¬ Spec.CanPeel (touchesF (c0 / 102) (splitmixSeed 1#64 u)) keys) := by
  have hs : 0 < c0 / 102 := by omega
  have hcap : c0 / fuseSlots * fuseSlots = 102 * (c0 / 102) := by
    unfold fuseSlots; exact Nat.mul_comm _ _
  have hsl : 102 * (c0 / 102) / fuseSlots = c0 / 102 := by
    unfold fuseSlots; exact Nat.mul_div_cancel_left _ (by norm_num)
  unfold Fuse.tryFrom fuseFromImpl
  rw [if_neg (by rintro ⟨h, h'⟩; exact h' hnd)]
  simp only [hcap, hsl]
  have e0 : (splitmix64 1#64).1 = splitmixState 1#64 (0 + 1) := rfl
  have e1 : (splitmix64 1#64).2 = splitmixSeed 1#64 0 := rfl
  rw [e0, e1]
  rcases fuseLoop_first (prof := prof) hs hnd hl 1000 0 with ⟨h1, h2⟩ | ⟨stk, u, h1, h2, h3, h4, h5, h6⟩
  · right
    rw [h2]
    exact ⟨rfl, fun u hu => h1 u (by omega) (by omega)⟩
  · left
    obtain ⟨fp, e1, e2, e3⟩ := fuseAssign_ok (w := w) hs h5
      ((List.range (102 * (c0 / 102))).map fp0) (by simp)
    rw [h6, Res.bind_ok]
    simp only [e1, Res.bind_ok]
    exact ⟨_, u, rfl, by omega, rfl, h3, fun v hv => h4 v (by omega) hv⟩

/-! ## Xor8/16/32 -/

/-- Cell `s` is one of the three cells of the key under a seed, in an Xor filter of block length `bl`. -/
def touchesXor (bl : Nat) (seed k : U64) (s : Nat) : Prop :=
  ∃ b < 3, s = xorH b bl (mix k seed) + b * bl

theorem touchesXor_canPeel {bl : Nat} {seed : U64} {keys : List U64} :
    Spec.CanPeel (touchesXor bl seed) keys ↔
      Spec.CanPeel (fun h i => xorOn bl i h = true) (keys.map fun k => mix k seed) := by
  rw [Spec.CanPeel.map]
  have : (fun k i => xorOn bl i (mix k seed) = true) = touchesXor bl seed := by
    funext k s
    exact propext xorOn_iff
  rw [this]

theorem xorLoop_first {prof : Profile} {bl : Nat} (hbl : 0 < bl) {keys : List U64} (hnd : keys.Nodup)
    (hl : keys.length < 2 ^ 32) :
    ∀ n t : Nat,
    ((∀ u, t ≤ u → u < t + n → ¬ Spec.CanPeel (touchesXor bl (splitmixSeed 1#64 u)) keys) ∧
      xorLoop prof (3 * bl) bl keys n (splitmixState 1#64 (t + 1)) (splitmixSeed 1#64 t) = .diverge) ∨
    ∃ stk u, t ≤ u ∧ u < t + n ∧ Spec.CanPeel (touchesXor bl (splitmixSeed 1#64 u)) keys ∧
      (∀ v, t ≤ v → v < u → ¬ Spec.CanPeel (touchesXor bl (splitmixSeed 1#64 v)) keys) ∧
      PeelOrder (xorOn bl) stk ∧
      xorLoop prof (3 * bl) bl keys n (splitmixState 1#64 (t + 1)) (splitmixSeed 1#64 t) =
        .ok (stk, splitmixSeed 1#64 u) := by
  intro n
  induction n with
  | zero => intro t; exact Or.inl ⟨fun u h1 h2 => by omega, rfl⟩
  | succ m ih =>
    intro t
    have hn := mix_nodup hnd (splitmixSeed 1#64 t)
    obtain ⟨r, h1, h2, h3⟩ := xorAttempt_ok (prof := prof) hbl
      (L := keys.map fun k => mix k (splitmixSeed 1#64 t)) (by simpa using hl)
    unfold xorLoop
    rw [h1, Res.bind_ok]
    cases r with
    | some stk =>
      right
      refine ⟨stk, t, le_rfl, by omega, ?_, fun v h1 h2 => by omega, (h2 stk rfl).2.1, rfl⟩
      exact touchesXor_canPeel.2 ((h2 stk rfl).2.1.canPeel.perm (h2 stk rfl).1.symm)
    | none =>
      have hnot : ¬ Spec.CanPeel (touchesXor bl (splitmixSeed 1#64 t)) keys := by
        intro hc
        obtain ⟨stk, e⟩ := h3 hn (touchesXor_canPeel.1 hc)
        cases e
      rcases ih (t + 1) with ⟨h1, h2⟩ | ⟨stk, u, h1, h2, h3, h4, h5, h6⟩
      · left
        refine ⟨fun u a b => ?_, h2⟩
        by_cases hu : u = t
        · rw [hu]; exact hnot
        · exact h1 u (by omega) (by omega)
      · right
        refine ⟨stk, u, by omega, by omega, h3, fun v a b => ?_, h5, h6⟩
        by_cases hv : v = t
        · rw [hv]; exact hnot
        · exact h4 v (by omega) b

/-- **C57 (Xor8/16/32).** For distinct keys, after `n` attempts `from` has returned if and only if the keys can
be peeled under one of the first `n` seeds of the splitmix sequence, and the filter carries the first such
seed. Hence it terminates if and only if some seed of the sequence works. -/
theorem C57_xor (w : Nat) (prof : Profile) (c0 : Nat) (keys : List U64) (hl : keys.length < 2 ^ 32)
    (hnd : keys.Nodup) (n : Nat) :
    (∃ f t, Xor.fromWithin w prof c0 keys n = .ok f ∧ t < n ∧ f.seed = splitmixSeed 1#64 t ∧
      Spec.CanPeel (touchesXor ((c0 + 32) / 3) (splitmixSeed 1#64 t)) keys ∧
      ∀ u < t, ¬ Spec.CanPeel (touchesXor ((c0 + 32) / 3) (splitmixSeed 1#64 u)) keys) ∨
    (Xor.fromWithin w prof c0 keys n = .diverge ∧
      ∀ u < n, ¬ Spec.CanPeel (touchesXor ((c0 + 32) / 3) (splitmixSeed 1#64 u)) keys) := by
  have hbl : 0 < (c0 + 32) / 3 := by omega
  have hcap : (c0 + 32) / 3 * 3 = 3 * ((c0 + 32) / 3) := Nat.mul_comm _ _
  have hb : 3 * ((c0 + 32) / 3) / 3 = (c0 + 32) / 3 := by omega
  unfold Xor.fromWithin
  rw [if_neg (by rintro ⟨h, h'⟩; exact h' hnd)]
  simp only [hcap, hb]
  have e0 : (splitmix64 1#64).1 = splitmixState 1#64 (0 + 1) := rfl
  have e1 : (splitmix64 1#64).2 = splitmixSeed 1#64 0 := rfl
  rw [e0, e1]
  rcases xorLoop_first (prof := prof) hbl hnd hl n 0 with ⟨h1, h2⟩ | ⟨stk, u, h1, h2, h3, h4, h5, h6⟩
  · right
    rw [h2]
    exact ⟨rfl, fun u hu => h1 u (by omega) (by omega)⟩
  · left
    obtain ⟨fp, e1, e2, e3⟩ := xorAssign_ok (w := w) hbl h5
    rw [h6, Res.bind_ok]
    simp only [e1, Res.bind_ok]
    exact ⟨_, u, rfl, by omega, rfl, h3, fun v hv => h4 v (by omega) hv⟩

/-- **C57 (Xor, termination).** `from` terminates if and only if some seed of the sequence allows peeling. -/
theorem C57_xor_terminates (w : Nat) (prof : Profile) (c0 : Nat) (keys : List U64)
    (hl : keys.length < 2 ^ 32) (hnd : keys.Nodup) :
    (∃ n, Xor.fromWithin w prof c0 keys n ≠ .diverge) ↔
    ∃ t, Spec.CanPeel (touchesXor ((c0 + 32) / 3) (splitmixSeed 1#64 t)) keys := by
  constructor
  · rintro ⟨n, hn⟩
    rcases C57_xor w prof c0 keys hl hnd n with ⟨_, t, _, _, _, h, _⟩ | ⟨h, _⟩
    · exact ⟨t, h⟩
    · exact absurd h hn
  · rintro ⟨t, ht⟩
    refine ⟨t + 1, ?_⟩
    rcases C57_xor w prof c0 keys hl hnd (t + 1) with ⟨f, _, h, _⟩ | ⟨_, h⟩
    · rw [h]; simp
    · exact absurd ht (h t (by omega))

/-- The load condition holds for any 63 or fewer keys. -/
theorem slotLoadX_lt_of_length (g : Geom) (seed : U64) (keys : List U64) (h : keys.length < 64) (s : Nat) :
    slotLoadX g seed keys s < 64 := lt_of_le_of_lt (List.length_filter_le _ _) h

/-- Non-vacuity for the 64-bit-key filters: distinct keys and loads below 64. -/
example : (∀ (g : Geom) (t s : Nat), slotLoadX g (splitmixSeed 1#64 t) [1#64, 2#64, 3#64] s < 64) := by
  intro g t s
  exact slotLoadX_lt_of_length g _ _ (by decide) s
example : [1#64, 2#64, 3#64].Nodup := by decide

/-- A single key can always be peeled. -/
example : ∀ seed k, Spec.CanPeel (touchesXor 10 seed) [k] := by
  intro seed k
  refine ⟨[k], List.Perm.refl _, ?_, trivial⟩
  refine ⟨xorH 0 10 (mix k seed) + 0 * 10, ?_, by simp⟩
  exact ⟨0, by omega, rfl⟩

end Chalamet
