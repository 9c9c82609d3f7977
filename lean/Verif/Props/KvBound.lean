import Verif.Props.Attainable
import Verif.Props.KvServer
import Verif.Props.Witnesses

/-!
# C91 (key-value databases): a built database has at least two rows more than keys
-/

namespace Chalamet
open Spec

/-- A key-value filter that was returned for keys with pairwise different hashes (release builds: no slot loaded with 64 or more
keys) has at least two cells more than keys. -/
theorem C91_keyed_bound (prof : Profile) (segExp cap0 : Nat) (fp0 : Nat → U32) (seed : List U8) (keys : List Key)
    (data : List U32) (label p : U64) (f : BinaryFuseP32) (hne : keys ≠ [])
    (hf : BinaryFuseP32.fromSlice prof segExp cap0 fp0 seed keys data label p = .ok f)
    (hdist : (keys.map fun k => mix256 k seed).Nodup)
    (hload : prof = .debug ∨ ∀ s, slotLoad seed f.geom keys s < 64) : keys.length + 2 ≤ f.fingerprints.length := by
  unfold BinaryFuseP32.fromSlice at hf
  split at hf
  · cases hf
  obtain ⟨lay, hashes, stk, fp, h1, h2, h3, h4, h5, rfl⟩ := bfp_ok hf
  obtain ⟨s, _, hg⟩ := bfLayout_wf h1
  have hl : fp.length = lay.arrayLen := by
    refine foldRes_inv_ok (fun _ fp => fp.length = lay.arrayLen) (by simp) ?_ h5
    intro _ e _ fp fp' _ hl hs
    rw [assignStepP_length hs, hl]
  have hhl : hashes.length = keys.length := mapRes_length h2
  have hinj : hashes.Nodup := by
    have e : (keys.map fun k => mix256 k seed) = hashes.map Res.ok := by
      apply List.ext_getElem (by simp [hhl])
      intro i hi hi'
      simp only [List.getElem_map]
      exact mapRes_getElem h2 _ _
    rw [e] at hdist
    exact hdist.of_map
  have hF : prof = .debug ∨ Fits lay.geom hashes := hload.imp id fun h => (fits_iff (g := lay.geom) h2).2 h
  rcases bfpLoop_spec (prof := prof) hg hhl hF with ⟨stk', hS, _⟩ | hb' | ⟨_, _, r, hr, hb'⟩
  · have hp := hS.canPeel hinj
    have hne' : hashes ≠ [] := by
      intro e
      rw [e] at hhl
      exact hne (List.length_eq_zero_iff.1 hhl.symm)
    have := hp.length_le (N := lay.arrayLen) hne' (fun h _ =>
        have o := slotsOk hg h
        ⟨{slotN lay.geom h 0, slotN lay.geom h 1, slotN lay.geom h 2}, by
          rw [Finset.card_eq_three]
          exact ⟨_, _, _, o.d01, o.d02, o.d12, rfl⟩, by
          intro s hs
          simp only [Finset.mem_insert, Finset.mem_singleton] at hs
          rcases hs with rfl | rfl | rfl <;> exact on_slot _ _ _⟩) (by
      intro h _ s hs
      have o := slotsOk hg h
      unfold on at hs
      rw [decide_eq_true_eq] at hs
      rcases hs with rfl | rfl | rfl
      · exact o.l0
      · exact o.l1
      · exact o.l2)
    show keys.length + 2 ≤ fp.length
    omega
  · rw [hb'] at h4; cases h4
  · rw [hb' _ (by decide)] at h4
    exact absurd h4 (hr _)

/-- **C91 (key-value shards).** A key-value shard built from keys with pairwise different hashes (release builds: with no slot
loaded with 64 or more keys) has a matrix of at least two rows more than keys. -/
theorem C91_kv_bound (prof : Profile) (prg : Prg) (pseed : List U8) (segExp cap0 : Nat) (fp0 : Nat → Nat → U32)
    (seed : List U8) (kvs : List KeyValue) (n m T b : Nat) (shard : KVShard)
    (hsh : KVShard.new prof prg pseed segExp cap0 fp0 seed kvs n m T b = .ok shard)
    (hdist : (kvs.map fun kv => mix256 kv.key seed).Nodup)
    (hload : prof = .debug ∨ ∀ s, slotLoad seed shard.db.filterParams.geom (kvs.map (·.key)) s < 64) :
    kvs.length + 2 ≤ shard.baseParams.m := by
  obtain ⟨lay, hlay, hm, -⟩ := kvShard_shape hsh
  unfold KVShard.new at hsh
  obtain ⟨db, hdb, hsh⟩ := Res.bind_eq_ok.1 hsh
  obtain ⟨bp, hbp, hsh⟩ := Res.bind_eq_ok.1 hsh
  cases hsh
  obtain ⟨lay', p, w, h0, hwv, hw0, hlay', hp, hfp, -, -, -, hel, hcols⟩ := kvNew_ok hdb
  obtain ⟨data, f, -, -, hf, hg, -, hfl, -, -⟩ := hcols 0 (by omega)
  rw [hlay] at hlay'
  cases hlay'
  have := C91_keyed_bound prof segExp cap0 (fp0 0) seed (kvs.map (·.key)) data _ p f (by
      intro e
      rw [List.map_eq_nil_iff] at e
      rw [e] at h0
      simp at h0) hf (by rw [List.map_map]; exact hdist) (by
    refine hload.imp id fun h s => ?_
    rw [hg]
    have := h s
    simp only [hfp] at this
    exact this)
  rw [List.length_map] at this
  rw [hm, ← hfl]
  exact this

/-- The hypotheses are met by the shard of three pairs. -/
example : ∃ shard, KVShard.new .debug wPrg [7#8] 3 12 wFp0 exSeed wKvs 2 99 16 9 = .ok shard ∧
    (wKvs.map fun kv => mix256 kv.key exSeed).Nodup ∧ 5 ≤ shard.baseParams.m := by
  obtain ⟨shard, _, _, h, _, _, hd, _⟩ := wKv
  exact ⟨shard, h, hd, C91_kv_bound _ _ _ _ _ _ _ _ _ _ _ _ shard h hd (Or.inl rfl)⟩

end Chalamet
