import Verif.Lemmas.Assign

/-! Whole-construction lemmas for the binary fuse filters. -/

namespace Chalamet

/-- Number of keys one of whose three slots (as reported by `hash_eval`) is `s`. -/
def slotLoad (seed : List U8) (g : Geom) (keys : List Key) (s : Nat) : Nat :=
  (keys.filter fun k =>
    match BinaryFuseP32.hashEval .release k seed g with
    | .ok slots => slots.contains s
    | _ => false).length

theorem slotLoad_eq {seed : List U8} {g : Geom} {keys : List Key} {hashes : List U64}
    (h : mapRes (fun k => mix256 k seed) keys = .ok hashes) (s : Nat) :
    slotLoad seed g keys s = cnt g hashes s := by
  induction keys generalizing hashes with
  | nil => cases h; rfl
  | cons k ks ih =>
    rw [mapRes_cons] at h
    obtain ⟨a, ha, h⟩ := Res.bind_eq_ok.1 h
    obtain ⟨as, has, h⟩ := Res.bind_eq_ok.1 h
    cases h
    have := ih has
    unfold slotLoad at this ⊢
    rw [cnt_cons, ← this, List.filter_cons]
    have e : (match BinaryFuseP32.hashEval .release k seed g with
        | .ok slots => slots.contains s
        | _ => false) = on g s a := by
      simp only [BinaryFuseP32.hashEval, hashOfHashC_release, ha, Res.bind_ok, on, slotN]
      simp [List.contains_eq_mem]
    rw [e]
    cases on g s a <;> simp

theorem fits_iff {seed : List U8} {g : Geom} {keys : List Key} {hashes : List U64}
    (h : mapRes (fun k => mix256 k seed) keys = .ok hashes) :
    Fits g hashes ↔ ∀ s, slotLoad seed g keys s < 64 := by
  constructor
  · intro hf s; rw [slotLoad_eq h]; have := hf s; omega
  · intro hf s; have := hf s; rw [slotLoad_eq h] at this; omega

theorem bfusePFromImpl_eq (prof : Profile) (segExp cap0 maxIter : Nat) (fp0 : Nat → U32)
    (seed : List U8) (keys : List Key) (data : List U32) (label ptxtMod : U64) :
    bfusePFromImpl prof segExp cap0 maxIter fp0 seed keys data label ptxtMod =
    (if prof = .debug ∧ (¬ keys.Nodup ∨ ptxtMod.toNat < 256) then .panic
     else bfLayout keys.length segExp cap0 >>= fun lay =>
      mapRes (fun k => mix256 k seed) keys >>= fun hashes =>
      if data.length < keys.length ∧ 0 < maxIter then .panic
      else bfpLoop prof lay keys.length hashes maxIter (BState.init keys.length lay.arrayLen) >>=
        fun stk => foldRes (assignStepP lay.geom hashes data label ptxtMod)
          ((List.range lay.arrayLen).map fp0) stk >>= fun fp =>
        .ok { seed := seed, geom := lay.geom, fingerprints := fp, ptxtMod := ptxtMod }) := rfl

/-- Anatomy of a successful construction. -/
theorem bfp_ok {prof : Profile} {segExp cap0 maxIter : Nat} {fp0 : Nat → U32} {seed : List U8}
    {keys : List Key} {data : List U32} {label ptxtMod : U64} {f : BinaryFuseP32}
    (h : bfusePFromImpl prof segExp cap0 maxIter fp0 seed keys data label ptxtMod = .ok f) :
    ∃ lay hashes stk fp, bfLayout keys.length segExp cap0 = .ok lay ∧
      mapRes (fun k => mix256 k seed) keys = .ok hashes ∧
      (0 < maxIter → keys.length ≤ data.length) ∧
      bfpLoop prof lay keys.length hashes maxIter (BState.init keys.length lay.arrayLen) = .ok stk ∧
      foldRes (assignStepP lay.geom hashes data label ptxtMod)
        ((List.range lay.arrayLen).map fp0) stk = .ok fp ∧
      f = { seed := seed, geom := lay.geom, fingerprints := fp, ptxtMod := ptxtMod } := by
  rw [bfusePFromImpl_eq] at h
  split at h
  · cases h
  · obtain ⟨lay, h1, h⟩ := Res.bind_eq_ok.1 h
    obtain ⟨hashes, h2, h⟩ := Res.bind_eq_ok.1 h
    split at h
    · cases h
    · rename_i hd
      obtain ⟨stk, h3, h⟩ := Res.bind_eq_ok.1 h
      obtain ⟨fp, h4, h⟩ := Res.bind_eq_ok.1 h
      cases h
      exact ⟨lay, hashes, stk, fp, h1, h2, by omega, h3, h4, rfl⟩

theorem assignStepP_length {g : Geom} {hashes : List U64} {data : List U32} {label ptxtMod : U64}
    {fp fp' : List U32} {e : U64 × Nat}
    (h : assignStepP g hashes data label ptxtMod fp e = .ok fp') : fp'.length = fp.length := by
  unfold assignStepP at h
  simp only at h
  split at h
  · cases h
  · split at h
    · cases h
    · obtain ⟨_, _, h⟩ := Res.bind_eq_ok.1 h
      obtain ⟨_, _, h⟩ := Res.bind_eq_ok.1 h
      obtain ⟨_, _, h⟩ := Res.bind_eq_ok.1 h
      obtain ⟨_, _, h⟩ := Res.bind_eq_ok.1 h
      obtain ⟨_, _, h⟩ := Res.bind_eq_ok.1 h
      unfold wr at h
      split at h
      · cases h; simp
      · cases h

/-- A constructed filter has a well-formed geometry and an array of the right length. -/
theorem bfp_wf {prof : Profile} {segExp cap0 maxIter : Nat} {fp0 : Nat → U32} {seed : List U8}
    {keys : List Key} {data : List U32} {label ptxtMod : U64} {f : BinaryFuseP32}
    (h : bfusePFromImpl prof segExp cap0 maxIter fp0 seed keys data label ptxtMod = .ok f) :
    ∃ lay s, bfLayout keys.length segExp cap0 = .ok lay ∧ f.geom = lay.geom ∧
      f.fingerprints.length = lay.arrayLen ∧ f.geom.WF f.fingerprints.length s lay.segmentCount ∧
      f.seed = seed ∧ f.ptxtMod = ptxtMod := by
  obtain ⟨lay, hashes, stk, fp, h1, h2, h3, h4, h5, rfl⟩ := bfp_ok h
  obtain ⟨s, _, hg⟩ := bfLayout_wf h1
  have hl : fp.length = lay.arrayLen := by
    refine foldRes_inv_ok (fun _ fp => fp.length = lay.arrayLen) (by simp) ?_ h5
    intro _ e _ fp fp' _ hl hs
    rw [assignStepP_length hs, hl]
  exact ⟨lay, s, h1, rfl, hl, by rw [hl]; exact hg, rfl, rfl⟩

theorem setWidth_toNat_lt {p : U64} (h : p.toNat < 2 ^ 32) :
    (p.setWidth 32 : U32).toNat = p.toNat := by
  rw [BitVec.toNat_setWidth]; exact Nat.mod_eq_of_lt h

theorem setWidth_ne_zero {p : U64} (h0 : 0 < p.toNat) (h : p.toNat < 2 ^ 32) :
    (p.setWidth 32 : U32) ≠ 0#32 := by
  intro e
  have := congrArg BitVec.toNat e
  rw [setWidth_toNat_lt h] at this
  simp at this
  omega

/-- Reading three fingerprints and unmasking. -/
theorem retrieve_eq {f : BinaryFuseP32} {key : Key} {label : U64} {hash : U64} {n : Nat}
    (hh : mix256 key f.seed = .ok hash) (ho : SlotsOk f.geom n hash) (hl : f.fingerprints.length = n)
    (hp : (f.ptxtMod.setWidth 32 : U32) ≠ 0#32) :
    f.retrieve key label = .ok ((f.fingerprints.getD (slotN f.geom hash 0) 0#32 +
      f.fingerprints.getD (slotN f.geom hash 1) 0#32 + f.fingerprints.getD (slotN f.geom hash 2) 0#32 +
      (mix hash label % f.ptxtMod).setWidth 32) % (f.ptxtMod.setWidth 32 : U32)) := by
  have hp2 : f.ptxtMod ≠ 0#64 := by intro e; rw [e] at hp; exact hp rfl
  have l0 : slotN f.geom hash 0 < f.fingerprints.length := by rw [hl]; exact ho.l0
  have l1 : slotN f.geom hash 1 < f.fingerprints.length := by rw [hl]; exact ho.l1
  have l2 : slotN f.geom hash 2 < f.fingerprints.length := by rw [hl]; exact ho.l2
  rw [getD_lt l0, getD_lt l1, getD_lt l2]
  unfold BinaryFuseP32.retrieve
  have k0 := rd_ok l0
  have k1 := rd_ok l1
  have k2 := rd_ok l2
  simp only [slotN] at k0 k1 k2
  simp only [hh, Res.bind_ok, k0, k1, k2, hp, hp2, or_self, if_false, slotN]

/-- The equations hold in a constructed filter. -/
theorem bfp_sat {prof : Profile} {segExp cap0 maxIter : Nat} {fp0 : Nat → U32} {seed : List U8}
    {keys : List Key} {data : List U32} {label ptxtMod : U64} {f : BinaryFuseP32}
    (h : bfusePFromImpl prof segExp cap0 maxIter fp0 seed keys data label ptxtMod = .ok f)
    (hit : 0 < maxIter)
    (hdvd : ptxtMod.toNat ∣ 2 ^ 32) (hlt : ptxtMod.toNat < 2 ^ 32)
    (hload : prof = .debug ∨ ∀ s, slotLoad seed f.geom keys s < 64) :
    ∃ hashes n, mapRes (fun k => mix256 k seed) keys = .ok hashes ∧ f.seed = seed ∧
      f.ptxtMod = ptxtMod ∧ keys.length ≤ data.length ∧ f.fingerprints.length = n ∧
      (∀ h, SlotsOk f.geom n h) ∧
      ∀ h ∈ hashes, SatP f.geom hashes data label ptxtMod (fun i => f.fingerprints.getD i 0#32) h := by
  obtain ⟨lay, hashes, stk, fp, h1, h2, h3, h4, h5, rfl⟩ := bfp_ok h
  obtain ⟨s, _, hg⟩ := bfLayout_wf h1
  have hl := mapRes_length h2
  have h3 := h3 hit
  have h0 : 0 < ptxtMod.toNat := Nat.pos_of_dvd_of_pos hdvd (by norm_num)
  have hS : Solved lay.geom hashes stk := by
    have hload' : prof = .debug ∨ Fits lay.geom hashes := hload.imp_right (fits_iff h2).2
    rcases bfpLoop_spec (prof := prof) hg hl hload' with ⟨stk', hS, hb⟩ | hb | ⟨_, _, r, hr, hb⟩
    · rw [hb _ hit] at h4; cases h4; exact hS
    · rw [hb] at h4; cases h4
    · rw [hb _ hit] at h4; exact absurd h4 (hr _)
  obtain ⟨fp', e1, e2, e3⟩ := assignP_sat (data := data) (label := label) (ptxtMod := ptxtMod)
    (fun h => slotsOk hg h) hS (by omega) (setWidth_ne_zero h0 hlt)
    (by rw [setWidth_toNat_lt hlt]; exact hdvd) ((List.range lay.arrayLen).map fp0) (by simp)
  rw [h5] at e1
  cases e1
  exact ⟨hashes, lay.arrayLen, h2, rfl, rfl, h3, e2, fun h => slotsOk hg h, e3⟩

end Chalamet
