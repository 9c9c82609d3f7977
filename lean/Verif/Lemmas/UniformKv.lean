import Verif.Lemmas.FillP
import Mathlib.Data.List.Forall2

/-! Shifting the data and the initial contents of a `BinaryFuseP32` shifts its cells (helper lemmas). -/

namespace Chalamet
open Finset

/-- Sum of `δ` over the three slots of a hash. -/
def slotSum {b : Nat} (g : Geom) (δ : Nat → ZMod (2 ^ b)) (h : U64) : ZMod (2 ^ b) :=
  δ (slotN g h 0) + δ (slotN g h 1) + δ (slotN g h 2)

theorem slotSum_other {b : Nat} (g : Geom) (δ : Nat → ZMod (2 ^ b)) (h : U64) {f : Nat} (hf : f < 3) :
    slotSum g δ h = δ (slotN g h f) + δ (slotN g h (otherSlots f).1) + δ (slotN g h (otherSlots f).2) := by
  have : f = 0 ∨ f = 1 ∨ f = 2 := by omega
  unfold slotSum
  rcases this with rfl | rfl | rfl <;> simp only [otherSlots] <;> norm_num <;> ring

theorem hmGet_shift {b : Nat} {hashes : List U64} {data data' : List U32} (σ : U64 → ZMod (2 ^ b))
    (hd : data.length = hashes.length) (hd' : data'.length = hashes.length)
    (h : ∀ i (hi : i < hashes.length), ((data'[i]).toNat : ZMod (2 ^ b)) = (data[i].toNat : ZMod (2 ^ b)) + σ hashes[i])
    {x : U64} {d : U32} (hx : hmGet hashes data x = some d) :
    ∃ d', hmGet hashes data' x = some d' ∧ (d'.toNat : ZMod (2 ^ b)) = (d.toNat : ZMod (2 ^ b)) + σ x := by
  have hrel : List.Forall₂ (fun (p q : U64 × U32) => p.1 = q.1 ∧ (q.2.toNat : ZMod (2 ^ b)) = (p.2.toNat : ZMod (2 ^ b)) + σ p.1)
      (hashes.zip data).reverse (hashes.zip data').reverse := by
    rw [List.forall₂_reverse_iff, List.forall₂_iff_get]
    refine ⟨by simp [hd, hd'], ?_⟩
    intro i h1 h2
    simp only [List.length_zip, hd, min_self] at h1
    simp only [List.get_eq_getElem, List.getElem_zip, true_and]
    exact h i h1
  unfold hmGet at hx ⊢
  generalize (hashes.zip data).reverse = l at hx hrel
  generalize (hashes.zip data').reverse = l' at hrel
  induction hrel with
  | nil => simp at hx
  | @cons p q l l' hpq _ ih =>
    obtain ⟨k, v⟩ := p
    obtain ⟨k', v'⟩ := q
    obtain ⟨rfl, hv⟩ := hpq
    rw [List.lookup_cons] at hx ⊢
    split at hx
    · rename_i hk
      cases hx
      rw [hk]
      rw [beq_iff_eq] at hk
      subst hk
      exact ⟨v', rfl, hv⟩
    · rename_i hk
      rw [hk]
      exact ih hx

/-- The loop with shifted data and shifted contents. -/
theorem assignP_shift {g : Geom} {hashes : List U64} {data data' : List U32} {label ptxtMod : U64} {b n : Nat} (hb : b ≤ 31)
    (hp : ptxtMod.toNat = 2 ^ b) (ho : ∀ h, SlotsOk g n h) (δ : Nat → ZMod (2 ^ b))
    (hd : data.length = hashes.length) (hd' : data'.length = hashes.length)
    (hdata : ∀ i (hi : i < hashes.length), ((data'[i]).toNat : ZMod (2 ^ b)) =
      (data[i].toNat : ZMod (2 ^ b)) + slotSum g δ hashes[i])
    {stk : List (U64 × Nat)} (hf : ∀ e ∈ stk, e.2 < 3) (hm : ∀ e ∈ stk, e.1 ∈ hashes)
    {A A' B B' : List U32} (hA : A.length = n) (hA' : A'.length = n)
    (hs : ∀ s < n, ((A'.getD s 0#32).toNat : ZMod (2 ^ b)) = ((A.getD s 0#32).toNat : ZMod (2 ^ b)) + δ s)
    (h : foldRes (assignStepP g hashes data label ptxtMod) A stk = .ok B)
    (h' : foldRes (assignStepP g hashes data' label ptxtMod) A' stk = .ok B') :
    ∀ s < n, ((B'.getD s 0#32).toNat : ZMod (2 ^ b)) = ((B.getD s 0#32).toNat : ZMod (2 ^ b)) + δ s := by
  induction stk generalizing A A' with
  | nil =>
    simp only [foldRes, Res.ok.injEq] at h h'
    subst h h'
    exact hs
  | cons e stk ih =>
    obtain ⟨x, f⟩ := e
    have hf3 : f < 3 := hf _ List.mem_cons_self
    have hlt : ptxtMod.toNat < 2 ^ 32 := by rw [hp]; exact Nat.pow_lt_pow_right (by omega) (by omega)
    have hpn : (ptxtMod.setWidth 32 : U32).toNat = 2 ^ b := by rw [setWidth_toNat_lt hlt, hp]
    have hp0 : (ptxtMod.setWidth 32 : U32) ≠ 0#32 := setWidth_ne_zero (by rw [hp]; exact Nat.two_pow_pos b) hlt
    obtain ⟨d, hdx⟩ := hmGet_isSome (data := data) (hm _ List.mem_cons_self) (by omega)
    obtain ⟨d', hdx', hdd⟩ := hmGet_shift (slotSum g δ) hd hd' hdata hdx
    rw [foldRes_cons, assignStepP_eq (ho x) hf3 hdx hp0 hA, Res.bind_ok] at h
    rw [foldRes_cons, assignStepP_eq (ho x) hf3 hdx' hp0 hA', Res.bind_ok] at h'
    refine ih (fun e he => hf e (List.mem_cons_of_mem _ he)) (fun e he => hm e (List.mem_cons_of_mem _ he))
      (by simpa using hA) (by simpa using hA') ?_ h h'
    intro s hsn
    rw [getD_set_fun (by rw [hA']; exact slot_lt (ho x) f), getD_set_fun (by rw [hA]; exact slot_lt (ho x) f)]
    split_ifs with e
    · subst e
      have e1 := hs _ (slot_lt (ho x) (otherSlots f).1)
      have e2 := hs _ (slot_lt (ho x) (otherSlots f).2)
      rw [cast_mod hpn, cast_sub (by omega), cast_mod hpn, cast_sub (by omega), cast_sub (by omega), cast_mod hpn,
        cast_mod hpn, cast_sub (by omega), cast_mod hpn, cast_sub (by omega), cast_sub (by omega), cast_mod hpn, hdd, e1, e2,
        slotSum_other g δ x hf3]
      ring
    · exact hs s hsn

/-- All fibres of a function have the same size if there are injections between them. -/
theorem card_fibre {A C : Type} [Fintype A] [Fintype C] [DecidableEq C] (f : A → C) (Φ : C → C → A → A)
    (hinj : ∀ c c', Function.Injective (Φ c c')) (hf : ∀ c c' a, f a = c → f (Φ c c' a) = c') (c : C) :
    (univ.filter fun a => f a = c).card * Fintype.card C = Fintype.card A := by
  have hle : ∀ c c', (univ.filter fun a => f a = c).card ≤ (univ.filter fun a => f a = c').card := by
    intro c c'
    refine card_le_card_of_injOn (Φ c c') ?_ (fun _ _ _ _ h => hinj c c' h)
    intro a ha
    simp only [coe_filter, mem_univ, true_and, Set.mem_ofPred_eq] at ha ⊢
    exact hf c c' a ha
  have hsum : Fintype.card A = ∑ c', (univ.filter fun a => f a = c').card := by
    rw [← card_univ]
    exact card_eq_sum_card_fiberwise (fun _ _ => mem_univ _)
  rw [hsum, sum_congr rfl (fun c' _ => le_antisymm (hle c' c) (hle c c')), sum_const, smul_eq_mul, card_univ, mul_comm]

/-- Whether a filter is built depends neither on the data nor on the initial contents; shifting both shifts the cells. -/
theorem bfp_shift {prof : Profile} {segExp cap0 b : Nat} (hb : b ≤ 31) {fp1 : Nat → U32} {seed : List U8}
    {keys : List Key} {data1 : List U32} {label1 p : U64} {f1 : BinaryFuseP32} {lay : Layout}
    (hlay : bfLayout keys.length segExp cap0 = .ok lay) (hp : p.toNat = 2 ^ b)
    (hload : prof = .debug ∨ ∀ s, slotLoad seed lay.geom keys s < 64)
    (h1 : BinaryFuseP32.fromVec prof segExp cap0 fp1 seed keys data1 label1 p = .ok f1) :
    ∃ hashes : List U64, mapRes (fun k => mix256 k seed) keys = .ok hashes ∧
      (∀ (data : List U32) (label : U64) (fp : Nat → U32), data.length = keys.length →
        ∃ f, BinaryFuseP32.fromVec prof segExp cap0 fp seed keys data label p = .ok f ∧ f.geom = lay.geom ∧
          f.fingerprints.length = lay.arrayLen ∧ f.ptxtMod = p ∧ f.seed = seed) ∧
      ∀ (data data' : List U32) (label : U64) (fp fp' : Nat → U32) (f f' : BinaryFuseP32) (δ : Nat → ZMod (2 ^ b)),
        data.length = keys.length → data'.length = keys.length →
        (∀ i (hi : i < keys.length) (hi1 : i < data.length) (hi2 : i < data'.length) (hi3 : i < hashes.length),
          ((data'[i]).toNat : ZMod (2 ^ b)) = (data[i].toNat : ZMod (2 ^ b)) + slotSum lay.geom δ hashes[i]) →
        (∀ s < lay.arrayLen, ((fp' s).toNat : ZMod (2 ^ b)) = ((fp s).toNat : ZMod (2 ^ b)) + δ s) →
        BinaryFuseP32.fromVec prof segExp cap0 fp seed keys data label p = .ok f →
        BinaryFuseP32.fromVec prof segExp cap0 fp' seed keys data' label p = .ok f' →
        ∀ s < lay.arrayLen, ((f'.fingerprints.getD s 0#32).toNat : ZMod (2 ^ b)) =
          ((f.fingerprints.getD s 0#32).toNat : ZMod (2 ^ b)) + δ s := by
  obtain ⟨lay', hashes, stk, B1, g1, g2, g3, g4, g5, _⟩ := bfp_ok h1
  rw [hlay] at g1
  cases g1
  obtain ⟨sg, _, hg⟩ := bfLayout_wf hlay
  have ho := slotsOk hg
  have hl := mapRes_length g2
  have hload' : prof = .debug ∨ Fits lay.geom hashes := hload.imp_right (fits_iff g2).2
  have hS : Solved lay.geom hashes stk := by
    rcases bfpLoop_spec (prof := prof) hg hl hload' with ⟨stk', hS, hb⟩ | hb | ⟨_, _, r, hr, hb⟩
    · rw [hb _ (by decide)] at g4; cases g4; exact hS
    · rw [hb] at g4; cases g4
    · rw [hb _ (by decide)] at g4; exact absurd g4 (hr _)
  have hlt : p.toNat < 2 ^ 32 := by rw [hp]; exact Nat.pow_lt_pow_right (by omega) (by omega)
  have hp0 : (p.setWidth 32 : U32) ≠ 0#32 := setWidth_ne_zero (by rw [hp]; exact Nat.two_pow_pos b) hlt
  refine ⟨hashes, g2, ?_, ?_⟩
  · intro data label fp hd
    obtain ⟨B, hB, hBl⟩ := assignP_total (label := label) ho hS (data := data) (by omega) hp0 ((List.range lay.arrayLen).map fp) (by simp)
    refine ⟨{ seed := seed, geom := lay.geom, fingerprints := B, ptxtMod := p }, ?_, rfl, hBl, rfl, rfl⟩
    unfold BinaryFuseP32.fromVec at h1 ⊢
    rw [bfusePFromImpl_eq] at h1 ⊢
    split at h1
    · cases h1
    · rename_i hdbg
      rw [if_neg hdbg, hlay, Res.bind_ok, g2, Res.bind_ok, if_neg (by omega), g4, Res.bind_ok, hB]
      rfl
  · intro data data' label fp fp' f f' δ hd hd' hdata hfp hf hf'
    obtain ⟨lay2, hashes2, stk2, B, k1, k2, k3, k4, k5, k6⟩ := bfp_ok hf
    rw [hlay] at k1
    cases k1
    rw [g2] at k2
    cases k2
    rw [g4] at k4
    cases k4
    obtain ⟨lay3, hashes3, stk3, B', j1, j2, j3, j4, j5, j6⟩ := bfp_ok hf'
    rw [hlay] at j1
    cases j1
    rw [g2] at j2
    cases j2
    rw [g4] at j4
    cases j4
    subst k6 j6
    simp only
    refine assignP_shift hb hp ho δ (by omega) (by omega) (fun i hi => hdata i (by omega) (by omega) (by omega) hi)
      (fun e he => hS.peel.1 e he) (fun e he => (hS.mem e.1).1 (List.mem_map.2 ⟨e, he, rfl⟩)) (by simp) (by simp) ?_ k5 j5
    intro s hs
    rw [getD_lt (by simpa using hs), getD_lt (by simpa using hs)]
    simpa using hfp s hs

end Chalamet
