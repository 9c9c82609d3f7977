import Verif.Props.Hang
import Verif.Props.Build

/-!
# C112: the complete outcome of a construction in a debug build

C57 and C62 assume that no slot is used by 64 or more keys. In a debug build the overflow of a slot counter is a panic,
so for these builds the assumption can be removed: the outcome of a construction is determined exactly, whatever the load.
-/

namespace Chalamet

open Spec

/-- The outcome is a value or a panic. -/
def OkOrPanic {α : Type} (x : Res α) : Prop := x = .panic ∨ ∃ a, x = .ok a

namespace OkOrPanic

theorem ok {α : Type} (a : α) : OkOrPanic (Res.ok a) := .inr ⟨a, rfl⟩

theorem bind {α β : Type} {x : Res α} {f : α → Res β} (hx : OkOrPanic x) (hf : ∀ a, OkOrPanic (f a)) :
    OkOrPanic (x >>= f) := by
  rcases hx with rfl | ⟨a, rfl⟩
  · exact .inl rfl
  · exact hf a

theorem rd {α : Type} (l : List α) (i : Nat) : OkOrPanic (rd l i) := by
  unfold Chalamet.rd
  split
  · exact ok _
  · exact .inl rfl

theorem wr {α : Type} (l : List α) (i : Nat) (a : α) : OkOrPanic (wr l i a) := by
  unfold Chalamet.wr
  split
  · exact ok _
  · exact .inl rfl

theorem addC {w : Nat} (prof : Profile) (a b : BitVec w) : OkOrPanic (addC prof a b) := by
  unfold Chalamet.addC
  cases prof with
  | release => exact ok _
  | debug =>
    dsimp only
    split
    · exact ok _
    · exact .inl rfl

theorem subC {w : Nat} (prof : Profile) (a b : BitVec w) : OkOrPanic (subC prof a b) := by
  unfold Chalamet.subC
  cases prof with
  | release => exact ok _
  | debug =>
    dsimp only
    split
    · exact ok _
    · exact .inl rfl

theorem bump (prof : Profile) (t : T2) (i : Nat) (x : U8) (h : U64) : OkOrPanic (bump prof t i x h) := by
  unfold Chalamet.bump
  exact (rd _ _).bind fun _ => (addC _ _ _).bind fun _ => (wr _ _ _).bind fun _ => (rd _ _).bind fun _ =>
    (wr _ _ _).bind fun _ => ok _

theorem unbump (prof : Profile) (t : T2) (i : Nat) (x : U8) (h : U64) : OkOrPanic (unbump prof t i x h) := by
  unfold Chalamet.unbump
  exact (rd _ _).bind fun _ => (subC _ _ _).bind fun _ => (wr _ _ _).bind fun _ => (rd _ _).bind fun _ =>
    (wr _ _ _).bind fun _ => ok _

theorem countStep (prof : Profile) (g : Geom) (s : CState) (h : U64) : OkOrPanic (countStep prof g s h) := by
  unfold Chalamet.countStep
  refine (bump _ _ _ _ _).bind fun _ => (bump _ _ _ _ _).bind fun _ => (bump _ _ _ _ _).bind fun _ =>
    (rd _ _).bind fun _ => (rd _ _).bind fun _ => (rd _ _).bind fun _ =>
    (rd _ _).bind fun _ => (rd _ _).bind fun _ => (rd _ _).bind fun _ => ?_
  dsimp only
  split
  · exact (unbump _ _ _ _ _).bind fun _ => (unbump _ _ _ _ _).bind fun _ => (unbump _ _ _ _ _).bind fun _ =>
      (rd _ _).bind fun _ => (rd _ _).bind fun _ => (rd _ _).bind fun _ => ok _
  · exact (rd _ _).bind fun _ => (rd _ _).bind fun _ => (rd _ _).bind fun _ => ok _

theorem foldRes {α σ : Type} {f : σ → α → Res σ} (hf : ∀ s a, OkOrPanic (f s a)) (s : σ) (l : List α) :
    OkOrPanic (foldRes f s l) := by
  induction l generalizing s with
  | nil => exact ok _
  | cons a as ih =>
    rw [foldRes_cons]
    exact (hf s a).bind fun s' => ih s'

end OkOrPanic

/-- An attempt of a debug build panics as soon as a slot is used by 64 of the different hashes. -/
theorem attempt_overload {lay : Layout} {s : Nat} {size : Nat} {hashes : List U64}
    (hg : lay.geom.WF lay.arrayLen s lay.segmentCount) (hl : hashes.length = size) (hnd : hashes.Nodup)
    (hF : ¬ Fits lay.geom hashes) :
    attempt .debug lay size hashes (BState.init size lay.arrayLen) = .panic := by
  have ho := fun h => slotsOk hg h
  obtain ⟨sp, ro, hb, hp, _⟩ := bucket_ok (bb := blockBits lay.segmentCount)
    (by have := blockBits_le lay.segmentCount; omega) hl
  have hc : foldRes (countStep .debug lay.geom)
      { t := (List.replicate lay.arrayLen 0#8, List.replicate lay.arrayLen 0#64), duplicates := 0, error := false }
      (ro.take size) = .panic := by
    rcases OkOrPanic.foldRes (OkOrPanic.countStep .debug lay.geom)
      { t := (List.replicate lay.arrayLen 0#8, List.replicate lay.arrayLen 0#64), duplicates := 0, error := false }
      (ro.take size) with h | ⟨c, h⟩
    · exact h
    · exfalso
      obtain ⟨R, I⟩ := count_debug ho h
      refine hF fun x => ?_
      have hsub : hashes.Subperm R := hnd.subperm fun y hy => (I.mem y).2 (hp.mem_iff.2 hy)
      exact le_trans (cnt_le_of_subperm hsub x) (I.fits x)
  unfold attempt
  simp only [BState.init, hb, Res.bind_ok, hc]
  rfl

/-- **C112 (key-value filter).** In a debug build, on well-formed input with pairwise different hashes, `from_slice`
panics if and only if some slot is used by 64 or more of the keys; otherwise it returns a filter if the keys can be
peeled and the construction error if they have a core. -/
theorem C112_kv_filter (segExp cap0 : Nat) (fp0 : Nat → U32) (seed : List U8)
    (keys : List Key) (data : List U32) (label ptxtMod : U64) (lay : Layout)
    (hlay : bfLayout keys.length segExp cap0 = .ok lay)
    (hseed : seed.length = 32) (hdata : data.length = keys.length)
    (hp0 : 256 ≤ ptxtMod.toNat) (hp : ptxtMod.toNat < 2 ^ 32)
    (hdist : (keys.map fun k => mix256 k seed).Nodup) :
    (BinaryFuseP32.fromSlice .debug segExp cap0 fp0 seed keys data label ptxtMod = .panic ↔
      ∃ s, 64 ≤ slotLoad seed lay.geom keys s) ∧
    ((∃ f, BinaryFuseP32.fromSlice .debug segExp cap0 fp0 seed keys data label ptxtMod = .ok f) ↔
      (∀ s, slotLoad seed lay.geom keys s < 64) ∧ CanPeel (touchesP seed lay.geom) keys) ∧
    (BinaryFuseP32.fromSlice .debug segExp cap0 fp0 seed keys data label ptxtMod = .err .filterFailed ↔
      (∀ s, slotLoad seed lay.geom keys s < 64) ∧ HasCore (touchesP seed lay.geom) keys) := by
  by_cases hload : ∀ s, slotLoad seed lay.geom keys s < 64
  · have h1 := C57_kv_filter .debug segExp cap0 fp0 seed keys data label ptxtMod lay hlay hseed hdata (by omega) hp
      (fun _ => hp0) hload hdist
    have h2 := C57_kv_filter_failure .debug segExp cap0 fp0 seed keys data label ptxtMod lay hlay hseed hdata
      (by omega) hp (fun _ => hp0) hload hdist
    refine ⟨⟨fun h => ?_, ?_⟩, by simp only [hload, h1, implies_true, true_and],
      by simp only [hload, h2, implies_true, true_and]⟩
    · rw [canPeel_iff_no_core _ _ hdist.of_map] at h1
      by_cases hc : HasCore (touchesP seed lay.geom) keys
      · rw [h2.2 hc] at h; cases h
      · obtain ⟨f, hf⟩ := h1.2 hc
        rw [hf] at h; cases h
    · rintro ⟨s, hs⟩
      have := hload s
      omega
  · have hpanic : BinaryFuseP32.fromSlice .debug segExp cap0 fp0 seed keys data label ptxtMod = .panic := by
      obtain ⟨s, _, hg⟩ := bfLayout_wf hlay
      choose gh hgh using mix256_total hseed
      have hh : mapRes (fun k => mix256 k seed) keys = .ok (keys.map gh) :=
        mapRes_ok_of_forall fun k _ => hgh k
      have hinj : (keys.map gh).Nodup := by
        have e : (keys.map fun k => mix256 k seed) = (keys.map gh).map Res.ok := by
          rw [List.map_map]
          exact List.map_congr_left fun k _ => hgh k
        rw [e] at hdist
        exact hdist.of_map
      have hF : ¬ Fits lay.geom (keys.map gh) := fun h => hload ((fits_iff hh).1 h)
      unfold BinaryFuseP32.fromSlice
      rw [if_neg (by omega), bfusePFromImpl_eq]
      split
      · rfl
      · rw [hlay]
        simp only [Res.bind_ok, hh]
        rw [if_neg (by omega), show bfpMaxIter = 99999 + 1 from rfl, bfpLoop,
          attempt_overload hg (by simp) hinj hF]
        rfl
    rw [hpanic]
    push Not at hload
    refine ⟨by simp [hload], ⟨?_, ?_⟩, ⟨?_, ?_⟩⟩
    · rintro ⟨f, hf⟩; cases hf
    · rintro ⟨h, _⟩
      obtain ⟨s, hs⟩ := hload
      have := h s
      omega
    · intro h; cases h
    · rintro ⟨h, _⟩
      obtain ⟨s, hs⟩ := hload
      have := h s
      omega

/-- **C112 (key-value shard).** In a debug build, on pairs whose values have one word per column, with `8 ≤ b ≤ 31`, a
32-byte filter seed, sizes that do not overflow and pairwise different key hashes, `KVShard::new` returns a shard if and
only if no slot is used by 64 or more keys and the keys can be peeled; in every other case it panics. -/
theorem C112_kv_shard (prg : Prg) (pseed : List U8) (segExp cap0 : Nat)
    (fp0 : Nat → Nat → U32) (seed : List U8) (kvs : List KeyValue) (n m T b : Nat) (lay : Layout)
    (hT : 0 < T) (hb1 : 8 ≤ b) (hb : b ≤ 31) (hne : kvs ≠ [])
    (hval : ∀ kv ∈ kvs, kv.value.length = width T b)
    (hlay : bfLayout kvs.length segExp cap0 = .ok lay) (hseed : seed.length = 32)
    (hdist : (kvs.map fun kv => mix256 kv.key seed).Nodup) :
    ((∃ shard, KVShard.new .debug prg pseed segExp cap0 fp0 seed kvs n m T b = .ok shard) ↔
      (∀ s, slotLoad seed lay.geom (kvs.map (·.key)) s < 64) ∧
        CanPeel (touchesP seed lay.geom) (kvs.map (·.key))) ∧
    (KVShard.new .debug prg pseed segExp cap0 fp0 seed kvs n m T b = .panic ↔
      ¬ ((∀ s, slotLoad seed lay.geom (kvs.map (·.key)) s < 64) ∧
        CanPeel (touchesP seed lay.geom) (kvs.map (·.key)))) := by
  suffices h : ((∀ s, slotLoad seed lay.geom (kvs.map (·.key)) s < 64) ∧
        CanPeel (touchesP seed lay.geom) (kvs.map (·.key)) →
      ∃ shard, KVShard.new .debug prg pseed segExp cap0 fp0 seed kvs n m T b = .ok shard) ∧
    (¬ ((∀ s, slotLoad seed lay.geom (kvs.map (·.key)) s < 64) ∧
        CanPeel (touchesP seed lay.geom) (kvs.map (·.key))) →
      KVShard.new .debug prg pseed segExp cap0 fp0 seed kvs n m T b = .panic) by
    refine ⟨⟨?_, h.1⟩, ⟨?_, h.2⟩⟩
    · rintro ⟨sh, hs⟩
      by_contra hc
      rw [h.2 hc] at hs
      cases hs
    · intro hs hc
      obtain ⟨sh, hs'⟩ := h.1 hc
      rw [hs] at hs'
      cases hs'
  by_cases hload : ∀ s, slotLoad seed lay.geom (kvs.map (·.key)) s < 64
  · have := C62_kv_build .debug prg pseed segExp cap0 fp0 seed kvs n m T b lay hT (by omega) hb (fun _ => hb1) hne
      hval hlay hseed hload hdist
    exact ⟨fun h => this.1 h.2, fun h => this.2 fun hc => h ⟨hload, hc⟩⟩
  · refine ⟨fun h => absurd h.1 hload, fun _ => ?_⟩
    push Not at hload
    have hw : 0 < width T b := Nat.div_pos (by omega) (by omega)
    have h0 : 0 < kvs.length := List.length_pos_of_ne_nil hne
    have h2b : 2 ^ b < 2 ^ 32 := Nat.pow_lt_pow_right (by omega) (by omega)
    have h8b : 2 ^ 8 ≤ 2 ^ b := Nat.pow_le_pow_right (by omega) hb1
    have hpn : (BitVec.ofNat 64 (2 ^ b) : U64).toNat = 2 ^ b := by
      rw [BitVec.toNat_ofNat]
      exact Nat.mod_eq_of_lt (by omega)
    have hp : pow2U64 .debug b = .ok (BitVec.ofNat 64 (2 ^ b)) := by
      unfold pow2U64
      have e : b % 2 ^ 32 = b := Nat.mod_eq_of_lt (by omega)
      simp only [e]
      rw [if_pos (by omega)]
    have hdata : mapRes (fun kv => rd kv.value 0) kvs = .ok (kvs.map fun kv => kv.value.getD 0 0#32) :=
      mapRes_ok_of_forall (by
        intro kv hkv
        have hl := hval kv hkv
        rw [rd_ok (by omega), getD_lt (by omega)])
    have hcol : columnFilter .debug segExp cap0 fp0 seed kvs b 0 = .panic := by
      unfold columnFilter
      rw [hdata, Res.bind_ok, hp, Res.bind_ok]
      rw [(C112_kv_filter segExp cap0 (fp0 0) seed (kvs.map (·.key)) (kvs.map fun kv => kv.value.getD 0 0#32)
        (BitVec.ofNat 64 0) (BitVec.ofNat 64 (2 ^ b)) lay (by simpa using hlay) hseed (by simp)
        (by rw [hpn]; omega) (by rw [hpn]; omega) (by rw [List.map_map]; exact hdist)).1.2 hload]
      rfl
    obtain ⟨w, hw'⟩ : ∃ w, width T b = w + 1 := ⟨width T b - 1, by omega⟩
    unfold KVShard.new KVDatabase.new storageFiltersFromKvs
    rw [rd_ok h0, Res.bind_ok, hval _ (List.getElem_mem h0), hw', List.range_succ_eq_map, mapRes_cons, hcol]
    rfl

/-! ## BinaryFuse8/16/32 -/

/-- In round `t` (counted from 0) the keys are hashed with the seed number `t` of the splitmix sequence: some slot is
used by 64 or more of them. -/
def Overloaded (lay : Layout) (keys : List U64) (t : Nat) : Prop :=
  ∃ s, 64 ≤ slotLoadX lay.geom (splitmixSeed 1#64 t) keys s

/-- The keys can be peeled in round `t`. -/
def PeelsIn (lay : Layout) (keys : List U64) (t : Nat) : Prop :=
  CanPeel (touchesX lay.geom (splitmixSeed 1#64 t)) keys

theorem not_overloaded_iff {lay : Layout} {keys : List U64} {t : Nat} :
    ¬ Overloaded lay keys t ↔ Fits lay.geom (keys.map fun k => mix k (splitmixSeed 1#64 t)) := by
  unfold Overloaded Fits
  push Not
  refine forall_congr' fun s => ?_
  rw [slotLoadX_eq]
  omega

/-- The retry loop of a debug build stops with a panic at the first overloaded round. -/
theorem bfxLoop_debug {lay : Layout} {s : Nat} {keys : List U64} (hnd : keys.Nodup)
    (hg : lay.geom.WF lay.arrayLen s lay.segmentCount) :
    ∀ (n t : Nat),
    ((∀ u, t ≤ u → u < t + n → ¬ Overloaded lay keys u ∧ ¬ PeelsIn lay keys u) ∧
      bfxLoop .debug lay keys n (splitmixState 1#64 (t + 1)) (splitmixSeed 1#64 t)
        (BState.init keys.length lay.arrayLen) = .err .filterFailed) ∨
    ∃ u, t ≤ u ∧ u < t + n ∧ (∀ v, t ≤ v → v < u → ¬ Overloaded lay keys v ∧ ¬ PeelsIn lay keys v) ∧
      ((Overloaded lay keys u ∧ bfxLoop .debug lay keys n (splitmixState 1#64 (t + 1)) (splitmixSeed 1#64 t)
          (BState.init keys.length lay.arrayLen) = .panic) ∨
       (¬ Overloaded lay keys u ∧ PeelsIn lay keys u ∧ ∃ stk,
          Solved lay.geom (keys.map fun k => mix k (splitmixSeed 1#64 u)) stk ∧
          bfxLoop .debug lay keys n (splitmixState 1#64 (t + 1)) (splitmixSeed 1#64 t)
            (BState.init keys.length lay.arrayLen) = .ok (stk, splitmixSeed 1#64 u))) := by
  intro n
  induction n with
  | zero => intro t; exact Or.inl ⟨fun u h1 h2 => by omega, rfl⟩
  | succ m ih =>
    intro t
    have hl : (keys.map fun k => mix k (splitmixSeed 1#64 t)).length = keys.length := by simp
    have hn := mix_nodup hnd (splitmixSeed 1#64 t)
    by_cases hov : Overloaded lay keys t
    · right
      refine ⟨t, le_rfl, by omega, fun v h1 h2 => by omega, .inl ⟨hov, ?_⟩⟩
      rw [bfxLoop, attempt_overload hg hl hn (fun h => (not_overloaded_iff.2 h) hov)]
      rfl
    · have hF := not_overloaded_iff.1 hov
      rcases attempt_ok (prof := .debug) hg hl hF with ⟨stk, hA, hS⟩ | hA
      · right
        refine ⟨t, le_rfl, by omega, fun v h1 h2 => by omega, .inr ⟨hov, touchesX_canPeel.2 (hS.canPeel hn), stk, hS, ?_⟩⟩
        rw [bfxLoop, hA]
        rfl
      · have hnot : ¬ PeelsIn lay keys t := by
          intro hc
          obtain ⟨stk, e⟩ := attempt_complete hg hl (Or.inr hF) hn (touchesX_canPeel.1 hc) hA
          cases e
        have e : bfxLoop .debug lay keys (m + 1) (splitmixState 1#64 (t + 1)) (splitmixSeed 1#64 t)
            (BState.init keys.length lay.arrayLen) =
            bfxLoop .debug lay keys m (splitmixState 1#64 (t + 1 + 1)) (splitmixSeed 1#64 (t + 1))
            (BState.init keys.length lay.arrayLen) := by
          rw [bfxLoop, hA]
          rfl
        rw [e]
        rcases ih (t + 1) with ⟨h1, h2⟩ | ⟨u, h1, h2, h3, h4⟩
        · left
          refine ⟨fun u a b => ?_, h2⟩
          by_cases hu : u = t
          · rw [hu]; exact ⟨hov, hnot⟩
          · exact h1 u (by omega) (by omega)
        · right
          refine ⟨u, by omega, by omega, fun v a b => ?_, h4⟩
          by_cases hv : v = t
          · rw [hv]; exact ⟨hov, hnot⟩
          · exact h3 v (by omega) b

/-- **C112 (BinaryFuse8/16/32).** In a debug build, for distinct keys, `try_from` goes through the first 1000 seeds of
the splitmix sequence. It returns the construction error if under each of them no slot is used by 64 keys and the keys
cannot be peeled. Otherwise the first seed for which this is not so decides: if some slot is used by 64 or more keys it
panics, and if not the keys can be peeled and it returns a filter with that seed. -/
theorem C112_binary_fuse (w segExp cap0 : Nat) (fp0 : Nat → BitVec w)
    (keys : List U64) (lay : Layout) (hlay : bfLayout keys.length segExp cap0 = .ok lay) (hnd : keys.Nodup) :
    ((∀ t < 1000, ¬ Overloaded lay keys t ∧ ¬ PeelsIn lay keys t) →
      BinaryFuse.tryFrom w .debug segExp cap0 fp0 keys = .err .filterFailed) ∧
    ∀ t < 1000, (∀ u < t, ¬ Overloaded lay keys u ∧ ¬ PeelsIn lay keys u) →
      (Overloaded lay keys t → BinaryFuse.tryFrom w .debug segExp cap0 fp0 keys = .panic) ∧
      (¬ Overloaded lay keys t → PeelsIn lay keys t →
        ∃ f, BinaryFuse.tryFrom w .debug segExp cap0 fp0 keys = .ok f ∧ f.seed = splitmixSeed 1#64 t) := by
  obtain ⟨s, _, hg⟩ := bfLayout_wf hlay
  have key : BinaryFuse.tryFrom w .debug segExp cap0 fp0 keys =
      (bfxLoop .debug lay keys 1000 (splitmixState 1#64 (0 + 1)) (splitmixSeed 1#64 0)
        (BState.init keys.length lay.arrayLen) >>= fun r =>
      foldRes (assignStepX lay.geom) ((List.range lay.arrayLen).map fp0) r.1 >>= fun fp =>
        .ok { seed := r.2, geom := lay.geom, fingerprints := fp }) := by
    unfold BinaryFuse.tryFrom
    rw [bfuseXFromImpl_eq, if_neg (by rintro ⟨h1, h2⟩; exact h2 hnd), hlay, Res.bind_ok]
  rw [key]
  rcases bfxLoop_debug hnd hg 1000 0 with ⟨h1, h2⟩ | ⟨u, _, hu, h3, h4⟩
  · rw [h2]
    refine ⟨fun _ => rfl, fun t ht _ => ⟨fun h => absurd h (h1 t (by omega) (by omega)).1,
      fun _ h => absurd h (h1 t (by omega) (by omega)).2⟩⟩
  · have hstop : Overloaded lay keys u ∨ PeelsIn lay keys u := h4.imp (·.1) (·.2.1)
    refine ⟨fun h => ?_, fun t ht hbef => ?_⟩
    · have := h u (by omega)
      rcases hstop with hs | hs
      · exact absurd hs this.1
      · exact absurd hs this.2
    · have hut : t ≤ u := by
        by_contra hc
        rcases hstop with hs | hs
        · exact (hbef u (by omega)).1 hs
        · exact (hbef u (by omega)).2 hs
      refine ⟨fun ho => ?_, fun hno hpe => ?_⟩
      · have : t = u := by
          by_contra hc
          exact (h3 t (by omega) (by omega)).1 ho
        subst this
        rcases h4 with ⟨_, h⟩ | ⟨h, _⟩
        · rw [h]; rfl
        · exact absurd ho h
      · have : t = u := by
          by_contra hc
          exact (h3 t (by omega) (by omega)).2 hpe
        subst this
        rcases h4 with ⟨h, _⟩ | ⟨_, _, stk, hS, h⟩
        · exact absurd h hno
        · obtain ⟨fp, e1, e2, e3⟩ := assignX_ok (fun h => slotsOk hg h) hS
            ((List.range lay.arrayLen).map fp0) (by simp)
          rw [h, Res.bind_ok, e1]
          exact ⟨_, rfl, rfl⟩

/-! ## Non-vacuity -/

/-- Whether the layout computed for the keys exists, the hashes differ and the load of slot 0 is the given one. -/
def loadOk (keys : List Key) (segExp cap0 load : Nat) : Bool :=
  match bfLayout keys.length segExp cap0 with
  | .ok lay => decide ((keys.map fun k => mix256 k exSeed).Nodup ∧ slotLoad exSeed lay.geom keys 0 = load)
  | _ => false

theorem loadOk_hang : loadOk ([1#64, 2#64, 3#64, 4#64] :: hangKeys) 5 109 64 = true := by decide +kernel

/-- 65 keys, 64 of which share a slot: a debug build panics on them, for every data and modulus. -/
example (fp0 : Nat → U32) (data : List U32) (label ptxtMod : U64) (hd : data.length = 65)
    (hp0 : 256 ≤ ptxtMod.toNat) (hp : ptxtMod.toNat < 2 ^ 32) :
    BinaryFuseP32.fromSlice .debug 5 109 fp0 exSeed ([1#64, 2#64, 3#64, 4#64] :: hangKeys) data label ptxtMod = .panic := by
  have h := loadOk_hang
  unfold loadOk at h
  cases hlay : bfLayout ([1#64, 2#64, 3#64, 4#64] :: hangKeys : List Key).length 5 109 with
  | ok lay =>
    rw [hlay] at h
    obtain ⟨h1, h2⟩ := of_decide_eq_true h
    exact (C112_kv_filter 5 109 fp0 exSeed _ data label ptxtMod lay hlay (by decide) hd hp0 hp h1).1.2 ⟨0, h2.ge⟩
  | _ => rw [hlay] at h; cases h

/-- The other two outcomes occur too: a peelable set (`exKeys`), and a set with a core (`exCore`). -/
example : (∃ f, BinaryFuseP32.fromSlice .debug 3 16 (fun _ => 0#32) exSeed exKeys [1#32, 2#32, 3#32] 7#64 1024#64 = .ok f) ∧
    BinaryFuseP32.fromSlice .debug 2 12 (fun _ => 0#32) exSeed exCore [1#32, 2#32] 7#64 1024#64 = .err .filterFailed := by
  constructor
  · have h : (BinaryFuseP32.fromSlice .debug 3 16 (fun _ => 0#32) exSeed exKeys [1#32, 2#32, 3#32] 7#64 1024#64).isOk = true := by
      decide +kernel
    cases e : BinaryFuseP32.fromSlice .debug 3 16 (fun _ => 0#32) exSeed exKeys [1#32, 2#32, 3#32] 7#64 1024#64 with
    | ok f => exact ⟨f, rfl⟩
    | _ => rw [e] at h; cases h
  · obtain ⟨lay, _, _, _, _, h⟩ := exCore_stuck
    exact h _ _ _ _

/-- For BinaryFuse8/16/32, whatever the layout: one key alone is peeled in the first round (a debug build succeeds). -/
example (w segExp cap0 : Nat) (fp0 : Nat → BitVec w) (k : U64) (lay : Layout) (hlay : bfLayout 1 segExp cap0 = .ok lay) :
    ∃ f, BinaryFuse.tryFrom w .debug segExp cap0 fp0 [k] = .ok f ∧ f.seed = splitmixSeed 1#64 0 := by
  refine ((C112_binary_fuse w segExp cap0 fp0 [k] lay hlay (by simp)).2 0 (by norm_num) (fun u hu => by omega)).2 ?_ ?_
  · rw [not_overloaded_iff]
    intro s
    have : cnt lay.geom ([k].map fun k => mix k (splitmixSeed 1#64 0)) s ≤ 1 := by
      rw [List.map_cons, List.map_nil, cnt_cons]
      have : cnt lay.geom [] s = 0 := rfl
      rw [this]
      split <;> omega
    exact le_trans this (by norm_num)
  · exact ⟨[k], List.Perm.refl _, ⟨_, .inl rfl, fun k' h => absurd h (by simp)⟩, trivial⟩

/-- For BinaryFuse8/16/32, whatever the layout for `64 + x` keys: there are different keys of which 64 or more use the same
slot in the first round, on which a debug build therefore panics. -/
example (x segExp cap0 : Nat) (hx : x < 2 ^ 20) (lay : Layout) (hlay : bfLayout (64 + x) segExp cap0 = .ok lay) :
    ∃ keys : List U64, keys.length = 64 + x ∧ keys.Nodup ∧ Overloaded lay keys 0 ∧
      ∀ (w : Nat) (fp0 : Nat → BitVec w), BinaryFuse.tryFrom w .debug segExp cap0 fp0 keys = .panic := by
  choose inv hinv using (C32_mix_bijective (splitmixSeed 1#64 0)).2
  simp only at hinv
  have hinj : Function.Injective inv := fun a b h => by rw [← hinv a, ← hinv b, h]
  have hnd : (((List.range (64 + x)).map fun i => BitVec.ofNat 64 i).map inv).Nodup := by
    refine List.Nodup.map hinj (List.Nodup.map_on ?_ List.nodup_range)
    intro i hi j hj e
    have := congrArg BitVec.toNat e
    have hi' := List.mem_range.1 hi
    have hj' := List.mem_range.1 hj
    rw [BitVec.toNat_ofNat, BitVec.toNat_ofNat, Nat.mod_eq_of_lt (by omega), Nat.mod_eq_of_lt (by omega)] at this
    exact this
  have hov : Overloaded lay (((List.range (64 + x)).map fun i => BitVec.ofNat 64 i).map inv) 0 := by
    refine ⟨0, ?_⟩
    rw [slotLoadX_eq, List.map_map, show ((fun k => mix k (splitmixSeed 1#64 0)) ∘ inv) = id from funext hinv, List.map_id]
    unfold cnt
    rw [List.countP_eq_length.2]
    · simp
    · intro h hh
      obtain ⟨i, hi, rfl⟩ := List.mem_map.1 hh
      have hi' := List.mem_range.1 hi
      have : (BitVec.ofNat 64 i : U64).toNat * lay.geom.segmentCountLength.toNat / 2 ^ 64 = 0 := by
        rw [BitVec.toNat_ofNat, Nat.mod_eq_of_lt (by omega)]
        apply Nat.div_eq_of_lt
        have := lay.geom.segmentCountLength.isLt
        calc i * lay.geom.segmentCountLength.toNat ≤ 2 ^ 21 * 2 ^ 32 := Nat.mul_le_mul (by omega) (by omega)
          _ < 2 ^ 64 := by norm_num
      unfold on slotN hashOfHash
      simp only [this]
      simp
  refine ⟨_, by simp, hnd, hov, fun w fp0 => ?_⟩
  exact ((C112_binary_fuse w segExp cap0 fp0 _ lay (by simpa using hlay) hnd).2 0 (by norm_num)
    (fun u hu => by omega)).1 hov

end Chalamet
