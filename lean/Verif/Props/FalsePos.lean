import Verif.Lemmas.Fill
import Verif.Props.Peeling
import Verif.Props.Fuse
import Mathlib.Data.Int.CardIntervalMod

/-!
# C66: absent keys, over the random contents of the unused cells

With the default feature `uniform-random` the constructors fill the fingerprint array with random words before
assigning cells. The theorems count those fillings: `Fin n → Fin (2^w)` are all fillings of `n` cells.
-/

namespace Chalamet
open Finset

/-- The initial array contents given by `x` (cells past `n` do not exist). -/
def fill {n w : Nat} (x : Fin n → Fin (2 ^ w)) (i : Nat) : BitVec w :=
  if h : i < n then BitVec.ofFin (x ⟨i, h⟩) else 0#w

theorem fill_lt {n w : Nat} (x : Fin n → Fin (2 ^ w)) (i : Fin n) : fill x i.val = BitVec.ofFin (x i) := by
  simp [fill]

theorem fill_ne {n w : Nat} {x y : Fin n → Fin (2 ^ w)} {i : Fin n} (h : ∀ k, k ≠ i → x k = y k) (s : Nat)
    (hs : s ≠ i.val) : fill x s = fill y s := by
  unfold fill
  split
  · rename_i hl
    rw [h ⟨s, hl⟩ (fun e => hs (congrArg Fin.val e))]
  · rfl

theorem card_eq_one' {M : Nat} (v : Fin M) : (univ.filter fun y : Fin M => y = v).card = 1 := by
  rw [Finset.filter_eq' univ v]; simp

/-- The number of fillings for which a fixed xor equation holds, when one cell determines it. -/
theorem card_xor_eq {n w : Nat} (i : Fin n) (φ : (Nat → BitVec w) → BitVec w)
    (h : ∀ f f' : Nat → BitVec w, (∀ k, k ≠ i.val → f k = f' k) → φ f = φ f' → f i.val = f' i.val)
    (v : BitVec w) :
    (univ.filter fun x : Fin n → Fin (2 ^ w) => φ (fill x) = v).card * 2 ^ w = (2 ^ w) ^ n := by
  have h1 := card_solve (N := 2 ^ w) (m := n) (fun y => y = v.toFin) i (fun x => (φ (fill x)).toFin) (by
    intro x y hxy he
    have h2 := h (fill x) (fill y) (fill_ne hxy) (BitVec.toFin_inj.1 he)
    rw [fill_lt, fill_lt] at h2
    exact BitVec.ofFin.inj h2)
  rw [card_eq_one', Nat.one_mul] at h1
  rw [← h1]
  congr 2
  ext x
  simp only [mem_filter, mem_univ, true_and]
  exact BitVec.toFin_inj.symm

/-- Verdict of a lookup as a function of the initial contents. -/
def verdict {w : Nat} (prog : List (XInstr w)) (v : BitVec w) (h0 h1 h2 : Nat) (f : Nat → BitVec w) : Bool :=
  decide (v = xrun prog f h0 ^^^ xrun prog f h1 ^^^ xrun prog f h2)

theorem verdict_dichotomy {w n : Nat} (prog : List (XInstr w)) (hp : ∀ i ∈ prog, i.a < n ∧ i.b < n)
    (v : BitVec w) {h0 h1 h2 : Nat} (l0 : h0 < n) (l1 : h1 < n) (l2 : h2 < n) :
    (∃ r, ∀ f, verdict prog v h0 h1 h2 f = r) ∨
    (univ.filter fun x : Fin n → Fin (2 ^ w) => verdict prog v h0 h1 h2 (fill x) = true).card * 2 ^ w =
      (2 ^ w) ^ n := by
  obtain ⟨k0, c0, e0⟩ := xrun_form_id prog hp h0 l0
  obtain ⟨k1, c1, e1⟩ := xrun_form_id prog hp h1 l1
  obtain ⟨k2, c2, e2⟩ := xrun_form_id prog hp h2 l2
  have key : ∀ f, xrun prog f h0 ^^^ xrun prog f h1 ^^^ xrun prog f h2 =
      k0 ^^^ k1 ^^^ k2 ^^^ xsum (fun i => (c0 i ^^ c1 i) ^^ c2 i) f n := by
    intro f
    rw [e0, e1, e2, xsum_xor, xsum_xor]
    ac_rfl
  generalize (fun i => (c0 i ^^ c1 i) ^^ c2 i) = c at key
  by_cases hc : ∀ i < n, c i = false
  · left
    refine ⟨decide (v = k0 ^^^ k1 ^^^ k2), fun f => ?_⟩
    unfold verdict
    rw [key, xsum_zero c f n hc, BitVec.xor_zero]
  · right
    push Not at hc
    obtain ⟨i, hi, hci⟩ := hc
    have hci : c i = true := by simpa using hci
    have h := card_xor_eq (w := w) (⟨i, hi⟩ : Fin n)
      (fun f => xrun prog f h0 ^^^ xrun prog f h1 ^^^ xrun prog f h2) (by
        intro f f' hff he
        simp only [key] at he
        have h1 : xsum c f n = xsum c f' n := (BitVec.xor_right_inj _).1 he
        have h2 := xsum_change c f f' i n hi fun k _ hk => hff k hk
        rw [h1, BitVec.xor_self, hci, if_pos rfl] at h2
        exact BitVec.xor_eq_zero_iff.1 h2.symm) v
    rw [← h]
    congr 2
    ext x
    simp only [mem_filter, mem_univ, true_and, verdict, decide_eq_true_eq]
    exact eq_comm

theorem verdict_fresh {w n : Nat} (prog : List (XInstr w)) (v : BitVec w) {h0 h1 h2 s : Nat} (hs : s < n)
    (hp : ∀ i ∈ prog, i.a ≠ s ∧ i.b ≠ s ∧ i.c ≠ s) (hmem : s = h0 ∨ s = h1 ∨ s = h2)
    (n01 : h0 ≠ h1) (n02 : h0 ≠ h2) (n12 : h1 ≠ h2) :
    (univ.filter fun x : Fin n → Fin (2 ^ w) => verdict prog v h0 h1 h2 (fill x) = true).card * 2 ^ w =
      (2 ^ w) ^ n := by
  have h := card_xor_eq (w := w) (⟨s, hs⟩ : Fin n)
    (fun f => xrun prog f h0 ^^^ xrun prog f h1 ^^^ xrun prog f h2) (by
      intro f f' hff he
      obtain ⟨u1, u2⟩ := xrun_untouched prog s hp f f' hff
      obtain ⟨u1', _⟩ := xrun_untouched prog s hp f' f' (fun _ _ => rfl)
      simp only at he ⊢
      rw [← u1, ← u1']
      rcases hmem with rfl | rfl | rfl
      · rw [u2 _ n01.symm, u2 _ n02.symm] at he
        exact (BitVec.xor_left_inj _).1 ((BitVec.xor_left_inj _).1 he)
      · rw [u2 _ n01, u2 _ n12.symm] at he
        exact (BitVec.xor_right_inj _).1 ((BitVec.xor_left_inj _).1 he)
      · rw [u2 _ n02, u2 _ n12] at he
        exact (BitVec.xor_right_inj _).1 he) v
  rw [← h]
  congr 2
  ext x
  simp only [mem_filter, mem_univ, true_and, verdict, decide_eq_true_eq]
  exact eq_comm

/-! ## BinaryFuse8/16/32 -/

theorem contains_eq {w : Nat} (f : BinaryFuse w) (key : U64) (h : U64) (hh : mix key f.seed = h)
    (l0 : slotN f.geom h 0 < f.fingerprints.length) (l1 : slotN f.geom h 1 < f.fingerprints.length)
    (l2 : slotN f.geom h 2 < f.fingerprints.length) :
    f.contains key = .ok (decide ((fingerprint h).setWidth w ^^^ (f.fingerprints.getD (slotN f.geom h 0) 0#w ^^^
      f.fingerprints.getD (slotN f.geom h 1) 0#w ^^^ f.fingerprints.getD (slotN f.geom h 2) 0#w) = 0#w)) := by
  rw [getD_lt l0, getD_lt l1, getD_lt l2]
  unfold BinaryFuse.contains
  have k0 := rd_ok l0
  have k1 := rd_ok l1
  have k2 := rd_ok l2
  simp only [slotN] at k0 k1 k2
  simp only [hh, k0, k1, k2, Res.bind_ok, slotN]

/-- Construction for all initial contents at once: same seed, and lookups are verdicts of one program. -/
theorem binaryFuse_fill {w : Nat} {prof : Profile} {segExp cap0 : Nat} {fp1 : Nat → BitVec w}
    {keys : List U64} {f1 : BinaryFuse w} {lay : Layout}
    (hlay : bfLayout keys.length segExp cap0 = .ok lay)
    (hf : BinaryFuse.tryFrom w prof segExp cap0 fp1 keys = .ok f1)
    (hload : prof = .debug ∨ ∀ s, slotLoadX lay.geom f1.seed keys s < 64) :
    f1.geom = lay.geom ∧ ∃ prog : List (XInstr w), (∀ i ∈ prog, i.a < lay.arrayLen ∧ i.b < lay.arrayLen) ∧
      (∀ i ∈ prog, ∃ k ∈ keys, touchesX lay.geom f1.seed k i.a ∧ touchesX lay.geom f1.seed k i.b ∧
        touchesX lay.geom f1.seed k i.c) ∧
      ∀ fp0 : Nat → BitVec w, (∀ i, lay.arrayLen ≤ i → fp0 i = 0#w) →
        ∃ f, BinaryFuse.tryFrom w prof segExp cap0 fp0 keys = .ok f ∧
        f.seed = f1.seed ∧ f.geom = lay.geom ∧
        ∀ key, f.contains key = .ok (verdict prog ((fingerprint (mix key f1.seed)).setWidth w)
          (slotN lay.geom (mix key f1.seed) 0) (slotN lay.geom (mix key f1.seed) 1)
          (slotN lay.geom (mix key f1.seed) 2) fp0) := by
  unfold BinaryFuse.tryFrom at hf ⊢
  simp only [bfuseXFromImpl_eq] at hf ⊢
  split at hf
  · cases hf
  rename_i hn
  rw [hlay, Res.bind_ok] at hf
  obtain ⟨⟨stk, sd⟩, hb, hf⟩ := Res.bind_eq_ok.1 hf
  obtain ⟨fp, ha, hf⟩ := Res.bind_eq_ok.1 hf
  cases hf
  obtain ⟨s, _, hg⟩ := bfLayout_wf hlay
  have ho := fun h => slotsOk hg h
  have hsol : Solved lay.geom (keys.map fun k => mix k sd) stk := (bfx_success hg hb).2 hload
  refine ⟨rfl, stk.map (instrX w lay.geom), ?_, ?_, ?_⟩
  · intro i hi
    obtain ⟨e, he, rfl⟩ := List.mem_map.1 hi
    exact ⟨slot_lt (ho _) _, slot_lt (ho _) _⟩
  · intro i hi
    obtain ⟨e, he, rfl⟩ := List.mem_map.1 hi
    obtain ⟨k, hk, hke⟩ := List.mem_map.1 ((hsol.mem e.1).1 (List.mem_map.2 ⟨e, he, rfl⟩))
    refine ⟨k, hk, ?_⟩
    have ht : ∀ j, touchesX lay.geom sd k (slotN lay.geom e.1 j) := by
      intro j
      unfold touchesX
      rw [hke]
      match j with
      | 0 => exact Or.inl rfl
      | 1 => exact Or.inr (Or.inl rfl)
      | _ + 2 => exact Or.inr (Or.inr rfl)
    exact ⟨ht _, ht _, ht _⟩
  · intro fp0 hfp0
    obtain ⟨B, e1, e2, e3⟩ := assignX_run ho hsol ((List.range lay.arrayLen).map fp0) (by simp)
    refine ⟨{ seed := sd, geom := lay.geom, fingerprints := B }, ?_, rfl, rfl, ?_⟩
    · rw [if_neg hn, hlay, Res.bind_ok, hb, Res.bind_ok, e1, Res.bind_ok]
    · intro key
      have hfun : (fun s => ((List.range lay.arrayLen).map fp0).getD s 0#w) = fp0 := by
        funext s
        by_cases hs : s < lay.arrayLen
        · simp [List.getD_eq_getElem?_getD, hs]
        · rw [hfp0 s (by omega)]
          simp [List.getD_eq_getElem?_getD, hs]
      rw [hfun] at e3
      generalize hh : mix key sd = h
      have l0 : slotN lay.geom h 0 < B.length := by rw [e2]; exact (ho h).l0
      have l1 : slotN lay.geom h 1 < B.length := by rw [e2]; exact (ho h).l1
      have l2 : slotN lay.geom h 2 < B.length := by rw [e2]; exact (ho h).l2
      rw [contains_eq { seed := sd, geom := lay.geom, fingerprints := B } key h hh l0 l1 l2]
      unfold verdict
      simp only [e3]
      rw [Res.ok.injEq, decide_eq_decide]
      exact BitVec.xor_eq_zero_iff

theorem touchesX_slot {g : Geom} {seed k : U64} {s : Nat} (h : touchesX g seed k s) :
    s = slotN g (mix k seed) 0 ∨ s = slotN g (mix k seed) 1 ∨ s = slotN g (mix k seed) 2 := by
  unfold touchesX at h
  simp only [slotN]
  exact h

theorem fill_ge {n w : Nat} (x : Fin n → Fin (2 ^ w)) (i : Nat) (h : n ≤ i) : fill x i = 0#w := by
  simp [fill, Nat.not_lt.2 h]

open scoped Classical in
/-- **C66 (BinaryFuse8/16/32).** Take keys for which construction succeeds for some initial contents. Then for
every key whatsoever, stored or not: either the verdict of `contains` is the same for all initial contents
(true for stored keys, by C40), or exactly the fraction `2^-w` of the initial contents makes it `true`. -/
theorem C66_binary_fuse (w : Nat) (prof : Profile) (segExp cap0 : Nat) (fp1 : Nat → BitVec w)
    (keys : List U64) (f1 : BinaryFuse w) (lay : Layout)
    (hlay : bfLayout keys.length segExp cap0 = .ok lay)
    (hf : BinaryFuse.tryFrom w prof segExp cap0 fp1 keys = .ok f1)
    (hload : prof = .debug ∨ ∀ s, slotLoadX lay.geom f1.seed keys s < 64)
    (key : U64) :
    (∃ r, ∀ x : Fin lay.arrayLen → Fin (2 ^ w), ∃ f, BinaryFuse.tryFrom w prof segExp cap0 (fill x) keys = .ok f ∧
      f.contains key = .ok r) ∨
    (univ.filter fun x : Fin lay.arrayLen → Fin (2 ^ w) =>
      ∃ f, BinaryFuse.tryFrom w prof segExp cap0 (fill x) keys = .ok f ∧ f.contains key = .ok true).card *
        2 ^ w = (2 ^ w) ^ lay.arrayLen := by
  obtain ⟨_, prog, hp1, _, hall⟩ := binaryFuse_fill hlay hf hload
  obtain ⟨s, _, hg⟩ := bfLayout_wf hlay
  have ho := slotsOk hg (mix key f1.seed)
  rcases verdict_dichotomy prog hp1 ((fingerprint (mix key f1.seed)).setWidth w) ho.l0 ho.l1 ho.l2 with
    ⟨r, h⟩ | h
  · left
    refine ⟨r, fun x => ?_⟩
    obtain ⟨f, h1, _, _, h2⟩ := hall (fill x) (fill_ge x)
    exact ⟨f, h1, by rw [h2, h]⟩
  · right
    rw [← h]
    congr 2
    ext x
    simp only [mem_filter, mem_univ, true_and]
    obtain ⟨f, h1, _, _, h2⟩ := hall (fill x) (fill_ge x)
    constructor
    · rintro ⟨f', e1, e2⟩
      rw [h1] at e1
      cases e1
      rw [h2] at e2
      exact Res.ok.inj e2
    · intro e
      exact ⟨f, h1, by rw [h2, e]⟩

open scoped Classical in
/-- **C66 (BinaryFuse8/16/32, rate).** If moreover the key uses a cell that no stored key uses, the second case
holds: the false-positive rate over the random contents is exactly `2^-w`. -/
theorem C66_binary_fuse_rate (w : Nat) (prof : Profile) (segExp cap0 : Nat) (fp1 : Nat → BitVec w)
    (keys : List U64) (f1 : BinaryFuse w) (lay : Layout)
    (hlay : bfLayout keys.length segExp cap0 = .ok lay)
    (hf : BinaryFuse.tryFrom w prof segExp cap0 fp1 keys = .ok f1)
    (hload : prof = .debug ∨ ∀ s, slotLoadX lay.geom f1.seed keys s < 64)
    (key : U64) (s : Nat) (hkey : touchesX lay.geom f1.seed key s)
    (hfresh : ∀ k ∈ keys, ¬ touchesX lay.geom f1.seed k s) :
    (univ.filter fun x : Fin lay.arrayLen → Fin (2 ^ w) =>
      ∃ f, BinaryFuse.tryFrom w prof segExp cap0 (fill x) keys = .ok f ∧ f.contains key = .ok true).card *
        2 ^ w = (2 ^ w) ^ lay.arrayLen := by
  obtain ⟨_, prog, _, hp2, hall⟩ := binaryFuse_fill hlay hf hload
  obtain ⟨sg, _, hg⟩ := bfLayout_wf hlay
  have ho := slotsOk hg (mix key f1.seed)
  have hkey' := touchesX_slot hkey
  have hs : s < lay.arrayLen := by
    rcases hkey' with e | e | e
    · rw [e]; exact ho.l0
    · rw [e]; exact ho.l1
    · rw [e]; exact ho.l2
  have h := verdict_fresh (n := lay.arrayLen) prog ((fingerprint (mix key f1.seed)).setWidth w) hs
    (h0 := slotN lay.geom (mix key f1.seed) 0) (h1 := slotN lay.geom (mix key f1.seed) 1)
    (h2 := slotN lay.geom (mix key f1.seed) 2)
    (by
      intro i hi
      obtain ⟨k, hk, ta, tb, tc⟩ := hp2 i hi
      refine ⟨?_, ?_, ?_⟩
      · intro e; rw [e] at ta; exact hfresh k hk ta
      · intro e; rw [e] at tb; exact hfresh k hk tb
      · intro e; rw [e] at tc; exact hfresh k hk tc) hkey' ho.d01 ho.d02 ho.d12
  rw [← h]
  congr 2
  ext x
  simp only [mem_filter, mem_univ, true_and]
  obtain ⟨f, h1, _, _, h2⟩ := hall (fill x) (fill_ge x)
  constructor
  · rintro ⟨f', e1, e2⟩
    rw [h1] at e1
    cases e1
    rw [h2] at e2
    exact Res.ok.inj e2
  · intro e
    exact ⟨f, h1, by rw [h2, e]⟩

/-! ## Fuse8/16/32 -/

theorem fuseContains_eq {w : Nat} (f : Fuse w) (key h : U64) (hh : mix key f.seed = h)
    (l0 : (h012 h f.segmentLength).1 < f.fingerprints.length)
    (l1 : (h012 h f.segmentLength).2.1 < f.fingerprints.length)
    (l2 : (h012 h f.segmentLength).2.2 < f.fingerprints.length) :
    f.contains key = .ok (decide ((fingerprint h).setWidth w =
      f.fingerprints.getD (h012 h f.segmentLength).1 0#w ^^^
      f.fingerprints.getD (h012 h f.segmentLength).2.1 0#w ^^^
      f.fingerprints.getD (h012 h f.segmentLength).2.2 0#w)) := by
  rw [getD_lt l0, getD_lt l1, getD_lt l2]
  unfold Fuse.contains
  simp only [hh, rd_ok l0, rd_ok l1, rd_ok l2, Res.bind_ok]

/-- Construction for all initial contents at once. -/
theorem fuse_fill {w : Nat} {prof : Profile} {c0 : Nat} (hc : 102 ≤ c0) {fp1 : Nat → BitVec w}
    {keys : List U64} (hl : keys.length < 2 ^ 32) {f1 : Fuse w}
    (hf : Fuse.tryFrom w prof c0 fp1 keys = .ok f1) :
    ∃ prog : List (XInstr w), (∀ i ∈ prog, i.a < 102 * (c0 / 102) ∧ i.b < 102 * (c0 / 102)) ∧
      (∀ i ∈ prog, ∃ k ∈ keys, touchesF (c0 / 102) f1.seed k i.a ∧ touchesF (c0 / 102) f1.seed k i.b ∧
        touchesF (c0 / 102) f1.seed k i.c) ∧
      ∀ fp0 : Nat → BitVec w, (∀ i, 102 * (c0 / 102) ≤ i → fp0 i = 0#w) →
        ∃ f, Fuse.tryFrom w prof c0 fp0 keys = .ok f ∧ f.seed = f1.seed ∧
        ∀ key, f.contains key = .ok (verdict prog ((fingerprint (mix key f1.seed)).setWidth w)
          (h012 (mix key f1.seed) (c0 / 102)).1 (h012 (mix key f1.seed) (c0 / 102)).2.1
          (h012 (mix key f1.seed) (c0 / 102)).2.2 fp0) := by
  have hs : 0 < c0 / 102 := by omega
  have hcap : c0 / fuseSlots * fuseSlots = 102 * (c0 / 102) := by
    unfold fuseSlots; exact Nat.mul_comm _ _
  have hsl : 102 * (c0 / 102) / fuseSlots = c0 / 102 := by
    unfold fuseSlots; exact Nat.mul_div_cancel_left _ (by norm_num)
  unfold Fuse.tryFrom at hf ⊢
  generalize hmax : 1000 = maxIter at hf ⊢
  have hn : ¬ (prof = .debug ∧ ¬ keys.Nodup) := by
    intro h
    unfold fuseFromImpl at hf
    rw [if_pos h] at hf
    cases hf
  unfold fuseFromImpl at hf ⊢
  simp only [if_neg hn, hcap, hsl] at hf ⊢
  rcases fuseLoop_spec (prof := prof) hs hl maxIter (splitmix64 1#64).1 (splitmix64 1#64).2 with
    h | ⟨stk, seed, h1, h2, h3⟩
  · rw [h] at hf; cases hf
  rw [h1, Res.bind_ok] at hf
  obtain ⟨B1, hB1, hf⟩ := Res.bind_eq_ok.1 hf
  cases hf
  have hmemk : ∀ e ∈ stk, ∃ k ∈ keys, mix k seed = e.hash := by
    intro e he
    obtain ⟨k, hk, hke⟩ := List.mem_map.1 (h2.mem_iff.1 (List.mem_map.2 ⟨e, he, rfl⟩))
    exact ⟨k, hk, hke⟩
  have hins : ∀ e ∈ stk, (instrF w (c0 / 102) e).a ∈ fuseHset (c0 / 102) e.hash ∧
      (instrF w (c0 / 102) e).b ∈ fuseHset (c0 / 102) e.hash ∧
      (instrF w (c0 / 102) e).c ∈ fuseHset (c0 / 102) e.hash := by
    intro e he
    have hon := h3.1 e he
    unfold fuseOn at hon
    rw [decide_eq_true_iff] at hon
    refine ⟨?_, ?_, hon⟩
    · unfold instrF fuseHset
      simp only
      split <;> simp
    · unfold instrF fuseHset
      simp only
      split <;> simp
  refine ⟨stk.map (instrF w (c0 / 102)), ?_, ?_, ?_⟩
  · intro i hi
    obtain ⟨e, he, rfl⟩ := List.mem_map.1 hi
    obtain ⟨_, hlt⟩ := fuseHset_spec hs e.hash
    exact ⟨hlt _ (hins e he).1, hlt _ (hins e he).2.1⟩
  · intro i hi
    obtain ⟨e, he, rfl⟩ := List.mem_map.1 hi
    obtain ⟨k, hk, hke⟩ := hmemk e he
    refine ⟨k, hk, ?_⟩
    unfold touchesF
    simp only
    rw [hke]
    exact hins e he
  · intro fp0 hfp0
    obtain ⟨B, e1, e2, e3⟩ := fuseAssign_run hs h3 ((List.range (102 * (c0 / 102))).map fp0) (by simp)
    refine ⟨{ seed := seed, segmentLength := c0 / 102, fingerprints := B }, ?_, rfl, ?_⟩
    · rw [h1, Res.bind_ok]
      simp only [e1, Res.bind_ok]
    · intro key
      have hfun : (fun s => ((List.range (102 * (c0 / 102))).map fp0).getD s 0#w) = fp0 := by
        funext s
        by_cases hs : s < 102 * (c0 / 102)
        · simp [List.getD_eq_getElem?_getD, hs]
        · rw [hfp0 s (by omega)]
          simp [List.getD_eq_getElem?_getD, hs]
      rw [hfun] at e3
      generalize hh : mix key seed = h
      obtain ⟨_, hlt⟩ := fuseHset_spec hs h
      unfold fuseHset at hlt
      rw [fuseContains_eq { seed := seed, segmentLength := c0 / 102, fingerprints := B } key h hh
        (by simp only; rw [e2]; exact hlt _ (by simp)) (by simp only; rw [e2]; exact hlt _ (by simp))
        (by simp only; rw [e2]; exact hlt _ (by simp))]
      unfold verdict
      simp only [e3]

open scoped Classical in
/-- **C66 (Fuse8/16/32).** As for the binary fuse filters: for every key, stored or not, either the verdict is
the same for all initial contents or exactly the fraction `2^-w` of them makes it `true`. -/
theorem C66_fuse (w : Nat) (prof : Profile) (c0 : Nat) (hc : 102 ≤ c0) (fp1 : Nat → BitVec w)
    (keys : List U64) (hl : keys.length < 2 ^ 32) (f1 : Fuse w)
    (hf : Fuse.tryFrom w prof c0 fp1 keys = .ok f1) (key : U64) :
    (∃ r, ∀ x : Fin (102 * (c0 / 102)) → Fin (2 ^ w), ∃ f, Fuse.tryFrom w prof c0 (fill x) keys = .ok f ∧
      f.contains key = .ok r) ∨
    (univ.filter fun x : Fin (102 * (c0 / 102)) → Fin (2 ^ w) =>
      ∃ f, Fuse.tryFrom w prof c0 (fill x) keys = .ok f ∧ f.contains key = .ok true).card * 2 ^ w =
        (2 ^ w) ^ (102 * (c0 / 102)) := by
  obtain ⟨prog, hp1, _, hall⟩ := fuse_fill hc hl hf
  obtain ⟨_, hlt⟩ := fuseHset_spec (show 0 < c0 / 102 by omega) (mix key f1.seed)
  unfold fuseHset at hlt
  rcases verdict_dichotomy prog hp1 ((fingerprint (mix key f1.seed)).setWidth w) (hlt _ List.mem_cons_self)
    (hlt _ (List.mem_cons_of_mem _ List.mem_cons_self))
    (hlt _ (List.mem_cons_of_mem _ (List.mem_cons_of_mem _ List.mem_cons_self))) with ⟨r, h⟩ | h
  · left
    refine ⟨r, fun x => ?_⟩
    obtain ⟨f, h1, _, h2⟩ := hall (fill x) (fill_ge x)
    exact ⟨f, h1, by rw [h2, h]⟩
  · right
    rw [← h]
    congr 2
    ext x
    simp only [mem_filter, mem_univ, true_and]
    obtain ⟨f, h1, _, h2⟩ := hall (fill x) (fill_ge x)
    constructor
    · rintro ⟨f', e1, e2⟩
      rw [h1] at e1
      cases e1
      rw [h2] at e2
      exact Res.ok.inj e2
    · intro e
      exact ⟨f, h1, by rw [h2, e]⟩

open scoped Classical in
/-- **C66 (Fuse8/16/32, rate).** If the key uses a cell that no stored key uses, the false-positive rate over the
random contents is exactly `2^-w`. -/
theorem C66_fuse_rate (w : Nat) (prof : Profile) (c0 : Nat) (hc : 102 ≤ c0) (fp1 : Nat → BitVec w)
    (keys : List U64) (hl : keys.length < 2 ^ 32) (f1 : Fuse w)
    (hf : Fuse.tryFrom w prof c0 fp1 keys = .ok f1) (key : U64)
    (s : Nat) (hkey : touchesF (c0 / 102) f1.seed key s)
    (hfresh : ∀ k ∈ keys, ¬ touchesF (c0 / 102) f1.seed k s) :
    (univ.filter fun x : Fin (102 * (c0 / 102)) → Fin (2 ^ w) =>
      ∃ f, Fuse.tryFrom w prof c0 (fill x) keys = .ok f ∧ f.contains key = .ok true).card * 2 ^ w =
        (2 ^ w) ^ (102 * (c0 / 102)) := by
  obtain ⟨prog, _, hp2, hall⟩ := fuse_fill hc hl hf
  obtain ⟨hnd, hlt⟩ := fuseHset_spec (show 0 < c0 / 102 by omega) (mix key f1.seed)
  have hs : s < 102 * (c0 / 102) := hlt s hkey
  have hk : s = (h012 (mix key f1.seed) (c0 / 102)).1 ∨ s = (h012 (mix key f1.seed) (c0 / 102)).2.1 ∨
      s = (h012 (mix key f1.seed) (c0 / 102)).2.2 := by
    unfold touchesF fuseHset at hkey
    simpa only [List.mem_cons, List.not_mem_nil, or_false] using hkey
  unfold fuseHset at hnd
  simp only [List.nodup_cons, List.mem_cons, List.not_mem_nil, or_false, not_or] at hnd
  have h := verdict_fresh (n := 102 * (c0 / 102)) prog ((fingerprint (mix key f1.seed)).setWidth w) hs
    (h0 := (h012 (mix key f1.seed) (c0 / 102)).1) (h1 := (h012 (mix key f1.seed) (c0 / 102)).2.1)
    (h2 := (h012 (mix key f1.seed) (c0 / 102)).2.2)
    (by
      intro i hi
      obtain ⟨k, hk, ta, tb, tc⟩ := hp2 i hi
      refine ⟨?_, ?_, ?_⟩
      · intro e; rw [e] at ta; exact hfresh k hk ta
      · intro e; rw [e] at tb; exact hfresh k hk tb
      · intro e; rw [e] at tc; exact hfresh k hk tc) hk hnd.1.1 hnd.1.2 hnd.2.1
  rw [← h]
  congr 2
  ext x
  simp only [mem_filter, mem_univ, true_and]
  obtain ⟨f, h1, _, h2⟩ := hall (fill x) (fill_ge x)
  constructor
  · rintro ⟨f', e1, e2⟩
    rw [h1] at e1
    cases e1
    rw [h2] at e2
    exact Res.ok.inj e2
  · intro e
    exact ⟨f, h1, by rw [h2, e]⟩

/-! ## The key-value filter -/

/-- A cell used by no stacked hash keeps its content and does not influence the others. -/
theorem assignP_untouched {g : Geom} {n : Nat} {hashes : List U64} {data : List U32}
    {label ptxtMod : U64} {stk : List (U64 × Nat)} (ho : ∀ h, SlotsOk g n h)
    (hst : ∀ e ∈ stk, e.2 < 3 ∧ ∃ d, hmGet hashes data e.1 = some d)
    (hp : (ptxtMod.setWidth 32 : U32) ≠ 0#32) (s : Nat) (hs : ∀ e ∈ stk, on g s e.1 = false)
    (B B' : List U32) (hB : B.length = n) (hB' : B'.length = n)
    (h : ∀ i, i ≠ s → B.getD i 0#32 = B'.getD i 0#32) :
    ∃ R R', foldRes (assignStepP g hashes data label ptxtMod) B stk = .ok R ∧
      foldRes (assignStepP g hashes data label ptxtMod) B' stk = .ok R' ∧
      R.length = n ∧ R'.length = n ∧ (∀ i, i ≠ s → R.getD i 0#32 = R'.getD i 0#32) ∧
      R.getD s 0#32 = B.getD s 0#32 ∧ R'.getD s 0#32 = B'.getD s 0#32 := by
  induction stk generalizing B B' with
  | nil => exact ⟨B, B', rfl, rfl, hB, hB', h, rfl, rfl⟩
  | cons e stk ih =>
    obtain ⟨hash, f⟩ := e
    obtain ⟨hf, d, hd⟩ := hst _ List.mem_cons_self
    have hne : ∀ i, slotN g hash i ≠ s := by
      intro i e
      have h1 := hs _ List.mem_cons_self
      have h2 := on_slot g hash i
      rw [e] at h2
      simp only at h1
      rw [h1] at h2
      cases h2
    simp only [foldRes_cons, assignStepP_eq (ho hash) hf hd hp hB, assignStepP_eq (ho hash) hf hd hp hB',
      Res.bind_ok]
    rw [h _ (hne _), h _ (hne _)]
    generalize hv : (((d % (ptxtMod.setWidth 32 : U32) - B'.getD (slotN g hash (otherSlots f).1) 0#32 -
          B'.getD (slotN g hash (otherSlots f).2) 0#32) % (ptxtMod.setWidth 32 : U32) -
          (mix hash label % ptxtMod).setWidth 32) % (ptxtMod.setWidth 32 : U32)) = v
    have hl : slotN g hash f < B.length := by rw [hB]; exact slot_lt (ho hash) _
    have hl' : slotN g hash f < B'.length := by rw [hB']; exact slot_lt (ho hash) _
    obtain ⟨R, R', r1, r2, r3, r4, r5, r6, r7⟩ := ih (fun e he => hst e (List.mem_cons_of_mem _ he))
      (fun e he => hs e (List.mem_cons_of_mem _ he)) (B.set (slotN g hash f) v) (B'.set (slotN g hash f) v)
      (by simpa using hB) (by simpa using hB') (by
        intro i hi
        rw [getD_set_fun hl, getD_set_fun hl']
        split
        · rfl
        · exact h i hi)
    refine ⟨R, R', r1, r2, r3, r4, r5, ?_, ?_⟩
    · rw [r6, getD_set_fun hl, if_neg (hne f).symm]
    · rw [r7, getD_set_fun hl', if_neg (hne f).symm]

/-- If two of the three summands agree, so does the third. -/
theorem solve_third {s a b c : Nat} {X Y : List U32} (hs : s = a ∨ s = b ∨ s = c) (d01 : a ≠ b)
    (d02 : a ≠ c) (d12 : b ≠ c) (o0 : s ≠ a → X.getD a 0#32 = Y.getD a 0#32)
    (o1 : s ≠ b → X.getD b 0#32 = Y.getD b 0#32) (o2 : s ≠ c → X.getD c 0#32 = Y.getD c 0#32)
    (he : X.getD a 0#32 + X.getD b 0#32 + X.getD c 0#32 = Y.getD a 0#32 + Y.getD b 0#32 + Y.getD c 0#32) :
    X.getD s 0#32 = Y.getD s 0#32 := by
  rcases hs with rfl | rfl | rfl
  · rw [o1 d01, o2 d02] at he
    exact (BitVec.add_left_inj _).1 ((BitVec.add_left_inj _).1 he)
  · rw [o0 d01.symm, o2 d12] at he
    exact (BitVec.add_right_inj _).1 ((BitVec.add_left_inj _).1 he)
  · rw [o0 d02.symm, o1 d12.symm] at he
    exact (BitVec.add_right_inj _).1 he

theorem card_mod {N p v : Nat} (hp : p ∣ N) (hv : v < p) :
    (univ.filter fun y : Fin N => y.val % p = v).card * p = N := by
  obtain ⟨q, rfl⟩ := hp
  have h : (univ.filter fun y : Fin (p * q) => y.val % p = v).card = q := by
    have h1 := Nat.count_modEq_card (p * q) (r := p) (by omega) v
    rw [Nat.mod_eq_of_lt hv, Nat.mul_mod_right, Nat.mul_div_cancel_left _ (by omega), if_neg (by omega),
      Nat.add_zero] at h1
    rw [Nat.count_eq_card_filter_range] at h1
    refine Eq.trans ?_ h1
    apply card_bij (fun y _ => y.val)
    · intro y hy
      simp only [mem_filter, mem_univ, true_and, mem_range] at hy ⊢
      refine ⟨y.isLt, ?_⟩
      unfold Nat.ModEq
      rw [hy, Nat.mod_eq_of_lt hv]
    · intro a _ b _ e
      exact Fin.ext e
    · intro y hy
      simp only [mem_filter, mem_range] at hy
      refine ⟨⟨y, hy.1⟩, ?_, rfl⟩
      simp only [mem_filter, mem_univ, true_and]
      have := hy.2
      unfold Nat.ModEq at this
      rw [this, Nat.mod_eq_of_lt hv]
  rw [h, Nat.mul_comm]

open scoped Classical in
/-- **C66 (key-value filter).** Take a filter construction that succeeds, with a modulus `p` dividing `2^32`, and
a key one of whose three cells is used by no stored key. Then every value below `p` is retrieved for exactly
the fraction `1/p` of the initial contents: the value read for such an absent key is uniformly random. -/
theorem C66_kv (prof : Profile) (segExp cap0 : Nat) (fp1 : Nat → U32) (seed : List U8)
    (keys : List Key) (data : List U32) (label ptxtMod : U64) (f1 : BinaryFuseP32) (lay : Layout)
    (hlay : bfLayout keys.length segExp cap0 = .ok lay)
    (hf : BinaryFuseP32.fromVec prof segExp cap0 fp1 seed keys data label ptxtMod = .ok f1)
    (hdvd : ptxtMod.toNat ∣ 2 ^ 32) (hlt : ptxtMod.toNat < 2 ^ 32)
    (hload : prof = .debug ∨ ∀ s, slotLoad seed lay.geom keys s < 64)
    (key : Key) (s : Nat) (hkey : touchesP seed lay.geom key s)
    (hfresh : ∀ k ∈ keys, ¬ touchesP seed lay.geom k s) (v : Nat) (hv : v < ptxtMod.toNat) :
    (univ.filter fun x : Fin lay.arrayLen → Fin (2 ^ 32) =>
      ∃ f y, BinaryFuseP32.fromVec prof segExp cap0 (fill x) seed keys data label ptxtMod = .ok f ∧
        f.retrieve key label = .ok y ∧ y.toNat = v).card * ptxtMod.toNat = (2 ^ 32) ^ lay.arrayLen := by
  unfold BinaryFuseP32.fromVec at hf ⊢
  have hit : 0 < bfpMaxIter := by norm_num [bfpMaxIter]
  generalize bfpMaxIter = maxIter at hf hit ⊢
  have hn : ¬ (prof = .debug ∧ (¬ keys.Nodup ∨ ptxtMod.toNat < 256)) := by
    intro h
    rw [bfusePFromImpl_eq, if_pos h] at hf
    cases hf
  obtain ⟨lay', hashes, stk, fp, h1, h2, h3, h4, h5, rfl⟩ := bfp_ok hf
  rw [hlay] at h1
  cases h1
  obtain ⟨sg, _, hg⟩ := bfLayout_wf hlay
  have ho := fun h => slotsOk hg h
  have hl := mapRes_length h2
  have h3 := h3 hit
  have h0 : 0 < ptxtMod.toNat := Nat.pos_of_dvd_of_pos hdvd (by norm_num)
  have hp := setWidth_ne_zero h0 hlt
  have hS : Solved lay.geom hashes stk := by
    have hload' : prof = .debug ∨ Fits lay.geom hashes := hload.imp_right (fits_iff h2).2
    rcases bfpLoop_spec (prof := prof) hg hl hload' with ⟨stk', hS, hb⟩ | hb | ⟨_, _, r, hr, hb⟩
    · rw [hb _ hit] at h4; cases h4; exact hS
    · rw [hb] at h4; cases h4
    · rw [hb _ hit] at h4; exact absurd h4 (hr _)
  have hst : ∀ e ∈ stk, e.2 < 3 ∧ ∃ d, hmGet hashes data e.1 = some d := fun e he =>
    ⟨hS.peel.1 _ he, hmGet_isSome ((hS.mem e.1).1 (List.mem_map.2 ⟨e, he, rfl⟩)) (by omega)⟩
  have hoff : ∀ e ∈ stk, on lay.geom s e.1 = false := by
    intro e he
    obtain ⟨j, hj, hje⟩ := List.getElem_of_mem ((hS.mem e.1).1 (List.mem_map.2 ⟨e, he, rfl⟩))
    have hg2 := mapRes_getElem? h2 j
    rw [List.getElem?_eq_getElem hj, List.getElem?_eq_getElem (by omega)] at hg2
    have hg3 : mix256 keys[j] seed = .ok e.1 := by rw [← hje]; simpa using hg2
    by_contra hc
    rw [Bool.not_eq_false] at hc
    exact hfresh _ (List.getElem_mem _) ((touchesP_iff hg3 s).1 hc)
  obtain ⟨hh, hkeyh⟩ : ∃ hh, mix256 key seed = .ok hh := by
    obtain ⟨l, hl, _⟩ := hkey
    unfold BinaryFuseP32.hashEval at hl
    obtain ⟨hh, e, _⟩ := Res.bind_eq_ok.1 hl
    exact ⟨hh, e⟩
  have hon := (touchesP_iff hkeyh s).2 hkey
  have hsk : s = slotN lay.geom hh 0 ∨ s = slotN lay.geom hh 1 ∨ s = slotN lay.geom hh 2 := by
    unfold on at hon
    simpa using hon
  have hs : s < lay.arrayLen := by
    rcases hsk with e | e | e
    · rw [e]; exact (ho hh).l0
    · rw [e]; exact (ho hh).l1
    · rw [e]; exact (ho hh).l2
  -- the array built from given contents
  have hrun : ∀ x : Fin lay.arrayLen → Fin (2 ^ 32), ∃ R,
      foldRes (assignStepP lay.geom hashes data label ptxtMod) ((List.range lay.arrayLen).map (fill x)) stk =
        .ok R ∧ R.length = lay.arrayLen := by
    intro x
    obtain ⟨R, _, r1, _, r3, _⟩ := assignP_untouched (label := label) ho hst hp s hoff
      ((List.range lay.arrayLen).map (fill x)) ((List.range lay.arrayLen).map (fill x)) (by simp) (by simp)
      (fun _ _ => rfl)
    exact ⟨R, r1, r3⟩
  choose R hR hRl using hrun
  have hbuild : ∀ x : Fin lay.arrayLen → Fin (2 ^ 32),
      bfusePFromImpl prof segExp cap0 maxIter (fill x) seed keys data label ptxtMod =
        .ok { seed := seed, geom := lay.geom, fingerprints := R x, ptxtMod := ptxtMod } := by
    intro x
    rw [bfusePFromImpl_eq, if_neg hn, hlay, Res.bind_ok, h2, Res.bind_ok, if_neg (by omega), h4,
      Res.bind_ok, hR x, Res.bind_ok]
  have hcell : ∀ x i, i < lay.arrayLen → ((List.range lay.arrayLen).map
      (fill (w := 32) (n := lay.arrayLen) x)).getD i 0#32 = fill x i := by
    intro x i hi
    simp [List.getD_eq_getElem?_getD, hi]
  have hself : ∀ x, (R x).getD s 0#32 = fill x s := by
    intro x
    obtain ⟨R1, _, r1, _, _, _, _, r6, _⟩ := assignP_untouched (label := label) ho hst hp s hoff
      ((List.range lay.arrayLen).map (fill x)) ((List.range lay.arrayLen).map (fill x)) (by simp) (by simp)
      (fun _ _ => rfl)
    rw [hR x] at r1
    cases r1
    rw [r6, hcell x s hs]
  have hother : ∀ x y, (∀ k, k ≠ (⟨s, hs⟩ : Fin lay.arrayLen) → x k = y k) → ∀ i, i ≠ s →
      (R x).getD i 0#32 = (R y).getD i 0#32 := by
    intro x y hxy
    obtain ⟨R1, R2, r1, r2, _, _, r5, _⟩ := assignP_untouched (label := label) ho hst hp s hoff
      ((List.range lay.arrayLen).map (fill x)) ((List.range lay.arrayLen).map (fill y)) (by simp) (by simp)
      (by
        intro i hi
        by_cases hin : i < lay.arrayLen
        · rw [hcell x i hin, hcell y i hin]
          exact fill_ne hxy i hi
        · simp [List.getD_eq_getElem?_getD, hin])
    rw [hR x] at r1
    rw [hR y] at r2
    cases r1
    cases r2
    exact r5
  obtain ⟨S, hSd⟩ : ∃ S : (Fin lay.arrayLen → Fin (2 ^ 32)) → U32, ∀ x, S x =
      (R x).getD (slotN lay.geom hh 0) 0#32 + (R x).getD (slotN lay.geom hh 1) 0#32 +
      (R x).getD (slotN lay.geom hh 2) 0#32 + (mix hh label % ptxtMod).setWidth 32 := ⟨_, fun _ => rfl⟩
  have hcard := card_solve (N := 2 ^ 32) (m := lay.arrayLen) (fun y => y.val % ptxtMod.toNat = v) ⟨s, hs⟩
    (fun x => (S x).toFin) (by
      intro x y hxy he
      have he := BitVec.toFin_inj.1 he
      rw [hSd, hSd] at he
      have he := (BitVec.add_left_inj _).1 he
      have e3 : fill x s = fill y s := by
        rw [← hself x, ← hself y]
        have o0 : s ≠ slotN lay.geom hh 0 → (R x).getD (slotN lay.geom hh 0) 0#32 =
          (R y).getD (slotN lay.geom hh 0) 0#32 := fun h => hother x y hxy _ h.symm
        have o1 : s ≠ slotN lay.geom hh 1 → (R x).getD (slotN lay.geom hh 1) 0#32 =
          (R y).getD (slotN lay.geom hh 1) 0#32 := fun h => hother x y hxy _ h.symm
        have o2 : s ≠ slotN lay.geom hh 2 → (R x).getD (slotN lay.geom hh 2) 0#32 =
          (R y).getD (slotN lay.geom hh 2) 0#32 := fun h => hother x y hxy _ h.symm
        have d01 := (ho hh).d01
        have d02 := (ho hh).d02
        have d12 := (ho hh).d12
        exact solve_third hsk d01 d02 d12 o0 o1 o2 he
      rw [show s = (⟨s, hs⟩ : Fin lay.arrayLen).val from rfl, fill_lt, fill_lt] at e3
      exact BitVec.ofFin.inj e3)
  have hm := card_mod hdvd hv
  have hset : (univ.filter fun x : Fin lay.arrayLen → Fin (2 ^ 32) =>
      ∃ f y, bfusePFromImpl prof segExp cap0 maxIter (fill x) seed keys data label ptxtMod = .ok f ∧
        f.retrieve key label = .ok y ∧ y.toNat = v) = univ.filter fun x : Fin lay.arrayLen → Fin (2 ^ 32) =>
      (S x).toFin.val %
        ptxtMod.toNat = v := by
    ext x
    simp only [mem_filter, mem_univ, true_and]
    have hret := retrieve_eq (f := { seed := seed, geom := lay.geom, fingerprints := R x, ptxtMod := ptxtMod })
      (label := label) hkeyh (ho hh) (hRl x) hp
    simp only at hret
    rw [← hSd x] at hret
    constructor
    · rintro ⟨f, y, e1, e2, e3⟩
      rw [hbuild x] at e1
      cases e1
      rw [hret] at e2
      cases e2
      rw [BitVec.toNat_umod, setWidth_toNat_lt hlt] at e3
      rw [← BitVec.val_toFin] at e3
      exact e3
    · intro e
      refine ⟨_, _, hbuild x, hret, ?_⟩
      rw [BitVec.toNat_umod, setWidth_toNat_lt hlt, ← BitVec.val_toFin]
      exact e
  rw [hset]
  have hpos : 0 < 2 ^ 32 := by norm_num
  apply Nat.eq_of_mul_eq_mul_right hpos
  calc _ = ((univ.filter fun x : Fin lay.arrayLen → Fin (2 ^ 32) =>
      (S x).toFin.val %
        ptxtMod.toNat = v).card * 2 ^ 32) * ptxtMod.toNat := by rw [Nat.mul_right_comm]
    _ = _ := by
      rw [hcard, Nat.mul_right_comm, hm, Nat.mul_comm]

/-! ## Non-vacuity -/

/-- A filter of three keys; key 78 shares its first cell (3) and its second (15) with stored keys, its third
(22) is used by none: `C66_binary_fuse_rate` applies with `s = 22`. -/
example : ∃ f1, BinaryFuse.tryFrom 8 .debug 3 20 (fun _ => 0#8) [1#64, 2#64, 3#64] = .ok f1 ∧
    (∃ lay, bfLayout 3 3 20 = .ok lay ∧ lay.geom = f1.geom) ∧
    hashOfHash (mix 78#64 f1.seed) f1.geom = (3#32, 15#32, 22#32) ∧
    ([1#64, 2#64, 3#64].map fun k => hashOfHash (mix k f1.seed) f1.geom) =
      [(3#32, 9#32, 21#32), (3#32, 12#32, 17#32), (5#32, 15#32, 16#32)] := by
  have h : ((BinaryFuse.tryFrom 8 .debug 3 20 (fun _ => 0#8) [1#64, 2#64, 3#64]) >>= fun f =>
      (bfLayout 3 3 20) >>= fun lay =>
      .ok (decide (lay.geom = f.geom), hashOfHash (mix 78#64 f.seed) f.geom,
        [1#64, 2#64, 3#64].map fun k => hashOfHash (mix k f.seed) f.geom)) =
      .ok (true, (3#32, 15#32, 22#32),
        [(3#32, 9#32, 21#32), (3#32, 12#32, 17#32), (5#32, 15#32, 16#32)]) := by decide +kernel
  obtain ⟨f, hf, h⟩ := Res.bind_eq_ok.1 h
  obtain ⟨lay, hl, h⟩ := Res.bind_eq_ok.1 h
  simp only [Res.ok.injEq, Prod.mk.injEq, decide_eq_true_eq] at h
  exact ⟨f, hf, ⟨lay, hl, h.1⟩, h.2⟩

/-- Likewise for a fuse filter of capacity 102: key 78 uses cell 57, the stored keys do not. -/
example : (Fuse.tryFrom 8 .debug 102 (fun _ => 0#8) [1#64, 2#64, 3#64] >>= fun f =>
      .ok (fuseHset 1 (mix 78#64 f.seed))) = .ok [57, 58, 59] ∧
    (Fuse.tryFrom 8 .debug 102 (fun _ => 0#8) [1#64, 2#64, 3#64] >>= fun f =>
      .ok ([1#64, 2#64, 3#64].map fun k => fuseHset 1 (mix k f.seed))) =
      .ok [[3, 4, 5], [89, 90, 91], [69, 70, 71]] := by decide +kernel

/-- And for a key-value filter: the absent key uses cells 7, 10, 19, the stored keys 1, 2, 8, 11, 18, 22, 23. -/
example : (BinaryFuseP32.fromVec .debug 3 20 (fun i => BitVec.ofNat 32 (i * 37 + 5)) exSeed exKeys
      [1#32, 2#32, 3#32] 7#64 1024#64 >>= fun f =>
      BinaryFuseP32.hashEval .debug [1#64, 1#64, 1#64, 1#64] exSeed f.geom) = .ok [7, 10, 19] ∧
    (BinaryFuseP32.fromVec .debug 3 20 (fun i => BitVec.ofNat 32 (i * 37 + 5)) exSeed exKeys
      [1#32, 2#32, 3#32] 7#64 1024#64 >>= fun f =>
      mapRes (fun k => BinaryFuseP32.hashEval .debug k exSeed f.geom) exKeys) =
      .ok [[1, 11, 22], [1, 8, 18], [2, 8, 23]] ∧ 1024 ∣ 2 ^ 32 := by
  decide +kernel

end Chalamet
