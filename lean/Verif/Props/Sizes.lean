import Verif.Lemmas.FloatLog
import Verif.Props.Peeling
import Verif.Props.Kv

/-!
# C74, C75, C76: the size of a filter as a function of the number of keys

Here the floating-point computations of the sizes (`Model/Float.lean`) are part of the program: the filters are
built with the sizes the code computes.
-/

namespace Chalamet

/-! ## The computed capacities -/

theorem rne_of_bounds {x : ℚ} {e N : ℤ} (h1 : (2 : ℚ) ^ e ≤ x) (h2 : x < (2 : ℚ) ^ (e + 1))
    (h3 : (N : ℚ) - 1 / 2 < x * 2 ^ (52 - e)) (h4 : x * 2 ^ (52 - e) < (N : ℚ) + 1 / 2) :
    rne x = N * 2 ^ (e - 52) := by
  have hx : 0 < x := lt_of_lt_of_le (zpow_pos (by norm_num) _) h1
  have hl : Int.log 2 x = e := by
    have a := (Int.zpow_le_iff_le_log (b := 2) (by norm_num) hx).1 (by exact_mod_cast h1)
    have b := (Int.lt_zpow_iff_log_lt (b := 2) (by norm_num) hx).1 (by exact_mod_cast h2)
    omega
  have hu : ulp x = 2 ^ (e - 52) := by unfold ulp; rw [hl]
  have hd : x / ulp x = x * 2 ^ (52 - e) := by
    rw [hu, div_eq_mul_inv, ← zpow_neg]
    congr 2
    ring
  unfold rne
  rw [hd, roundEven_eq h3 h4, hu]

theorem rne_123 : rne (123 / 100) = 5539427541665710 / 2 ^ 52 := by
  rw [rne_of_bounds (e := 0) (N := 5539427541665710)] <;> norm_num

theorem rne_879 : rne (879 / 1000) = 7917328144917332 / 2 ^ 53 := by
  rw [rne_of_bounds (e := -1) (N := 7917328144917332)] <;> norm_num

theorem fuseOverhead_eq : fuseOverhead = 5123549064130257 / 2 ^ 52 := by
  unfold fuseOverhead f64Div
  rw [rne_879, rne_of_bounds (e := 0) (N := 5123549064130257)] <;> norm_num

theorem f64ToUint_rne {A B : Nat} {y : ℚ} (hB : 0 < B) (hB' : B ≤ 1000) (hA : A < 2 ^ 41 * B)
    (h1 : (A : ℚ) / B - (A : ℚ) / B / 2 ^ 55 ≤ y) (h2 : y ≤ (A : ℚ) / B) : f64ToUint 64 (rne y) = A / B := by
  unfold f64ToUint
  rw [floor_rne_div hB hB' hA h1 h2]
  apply min_eq_left
  have : A / B < 2 ^ 41 := by rw [Nat.div_lt_iff_lt_mul hB]; omega
  omega

/-- The computed Xor capacity is exactly `⌊1.23 n⌋`: rounding errors never show. -/
theorem xorC0_eq {n : Nat} (h : n < 2 ^ 40) : xorC0 n = 123 * n / 100 := by
  unfold xorC0 f64Mul
  rw [f64OfNat_eq (by omega), rne_123]
  have hn : (0 : ℚ) ≤ n := by positivity
  apply f64ToUint_rne (by norm_num) (by norm_num) (by omega)
  · push_cast; norm_num; linarith
  · push_cast; norm_num; linarith

/-- The computed Fuse capacity is exactly `⌊n / 0.879⌋`. -/
theorem fuseC0_eq {n : Nat} (h : n < 2 ^ 40) : fuseC0 n = 1000 * n / 879 := by
  unfold fuseC0 f64Mul
  rw [f64OfNat_eq (by omega), fuseOverhead_eq]
  have hn : (0 : ℚ) ≤ n := by positivity
  apply f64ToUint_rne (by norm_num) (by norm_num) (by omega)
  · push_cast; norm_num; linarith
  · push_cast; norm_num; linarith

theorem foldRes_congr_mem {α σ : Type} {f g : σ → α → Res σ} (s : σ) (l : List α) (h : ∀ s, ∀ a ∈ l, f s a = g s a) :
    foldRes f s l = foldRes g s l := by
  induction l generalizing s with
  | nil => rfl
  | cons a as ih =>
    rw [foldRes_cons, foldRes_cons, h s a (by simp)]
    cases g s a
    · exact ih _ fun s b hb => h s b (by simp [hb])
    all_goals rfl

/-- `floor(i as f64 / 8)` is `i / 8`: the simplification made in the model of `bits_to_bytes_le`. -/
theorem byteIndex_eq {i : Nat} (h : i < 2 ^ 53) : byteIndex i = i / 8 := by
  have e : f64Div (f64OfNat i) 8 = (i : ℚ) / 2 ^ 3 := by
    unfold f64Div
    rw [f64OfNat_eq h]
    have := rne_exact (j := 3) (k := i) (by omega) (by omega)
    norm_num at this ⊢
    exact this
  unfold byteIndex f64Floor f64ToUint
  have hf : ⌊(i : ℚ) / 2 ^ 3⌋ = ((i / 8 : Nat) : ℤ) := by
    have := Rat.floor_intCast_div_natCast (i : ℤ) 8
    norm_num at this ⊢
    exact this
  rw [e, hf, Int.cast_natCast, Nat.floor_natCast]
  apply min_eq_left
  omega

/-- **C10 (floating-point index).** `bits_to_bytes_le` computes the position of the byte to update in `f64`. For every bit
string of at most 2^53 bits (2^50 bytes) the result is the one of exact integer division: it always succeeds and its bits,
read back, are the given ones followed by zeros up to a whole number of bytes. -/
theorem C10_float_index (prof : Profile) (bits : List Bool) (h : bits.length ≤ 2 ^ 53) :
    bitsToBytesLeF64 prof bits = bitsToBytesLe prof bits ∧
    ∃ bytes, bitsToBytesLeF64 prof bits = .ok bytes ∧ bytes.length = (bits.length + 7) / 8 ∧
      bytesToBitsLe bytes = bits ++ List.replicate (8 * ((bits.length + 7) / 8) - bits.length) false := by
  have e : bitsToBytesLeF64 prof bits = bitsToBytesLe prof bits := by
    unfold bitsToBytesLeF64 bitsToBytesLe
    refine foldRes_congr_mem _ _ fun s ib hib => ?_
    have : ib.1 < 2 ^ 53 := by
      have := (List.of_mem_zip hib).1
      rw [List.mem_range] at this
      omega
    unfold bitsToBytesStepF64 bitsToBytesStep
    rw [byteIndex_eq this]
  refine ⟨e, ?_⟩
  rw [e]
  exact C10_bits_bytes_bits prof bits

/-- Non-vacuity of the floating-point index of C10: 11 bits. -/
example : bitsToBytesLeF64 .debug [true, false, false, false, false, false, false, false, false, true, true] =
    .ok [1#8, 6#8] := by
  rw [(C10_float_index _ _ (by simp)).1]
  decide +kernel

/-! ## C74 -/

/-- **C74 (Xor).** A Xor filter built from `n` keys has `3 * ⌊(⌊1.23 n⌋ + 32) / 3⌋` cells: more than
`1.23 n + 28` and at most `1.23 n + 32`, whatever the keys and the rounding errors of the `f64` product. -/
theorem C74_xor_len (w : Nat) (prof : Profile) (keys : List U64) (hl : keys.length < 2 ^ 32) (t : Nat) (f : Xor w)
    (hf : Xor.fromWithin w prof (xorC0 keys.length) keys t = .ok f) :
    f.len = (123 * keys.length / 100 + 32) / 3 * 3 ∧
    123 * keys.length + 2800 < 100 * f.len ∧ 100 * f.len ≤ 123 * keys.length + 3200 := by
  have hlen : f.len = (xorC0 keys.length + 32) / 3 * 3 := by
    rcases C41_total w prof (xorC0 keys.length) keys hl (xorFrom_nodup hf) t with h | ⟨f', h, h', _⟩
    · rw [h] at hf; cases hf
    · rw [h t le_rfl] at hf; cases hf; exact h'
  rw [xorC0_eq (by omega)] at hlen
  rw [hlen]
  omega

/-- **C74 (Fuse).** From 90 keys on, a Fuse filter has `102 * ⌊⌊n / 0.879⌋ / 102⌋` cells; from 1 to 89 keys
construction panics in every build, and the filter of no keys has no cell and panics on every lookup. -/
theorem C74_fuse_len (w : Nat) (prof : Profile) (fp0 : Nat → BitVec w) (keys : List U64)
    (hl : keys.length < 2 ^ 32) :
    (90 ≤ keys.length → ∀ f, Fuse.tryFrom w prof (fuseC0 keys.length) fp0 keys = .ok f →
      f.len = 1000 * keys.length / 879 / 102 * 102) ∧
    (1 ≤ keys.length → keys.length < 90 → Fuse.tryFrom w prof (fuseC0 keys.length) fp0 keys = .panic) ∧
    (keys = [] → ∃ f, Fuse.tryFrom w prof (fuseC0 keys.length) fp0 keys = .ok f ∧ f.len = 0 ∧
      ∀ k, f.contains k = .panic) := by
  have hc := fuseC0_eq (n := keys.length) (by omega)
  refine ⟨fun h90 f hf => ?_, fun h1 h90 => ?_, ?_⟩
  · have hd : prof = .debug → keys.Nodup := by
      intro hp
      by_contra hn
      unfold Fuse.tryFrom fuseFromImpl at hf
      rw [if_pos ⟨hp, hn⟩] at hf
      cases hf
    rcases C43_total w prof (fuseC0 keys.length) fp0 keys hl (by rw [hc]; omega) hd with h | ⟨f', h, h'⟩
    · rw [h] at hf; cases hf
    · rw [h] at hf; cases hf
      rw [Fuse.len, h', hc]
  · exact (C44_small_inputs w prof _ (by rw [hc]; omega) fp0).1 keys (by
      intro h; rw [h] at h1; simp at h1)
  · rintro rfl
    have h0 : fuseC0 ([] : List U64).length = 0 := by rw [hc]; rfl
    rw [h0]
    obtain ⟨f, h, hp⟩ := (C44_small_inputs w prof 0 (by omega) fp0).2
    refine ⟨f, h, ?_, hp⟩
    have h1 := hp 0#64
    by_contra hne
    obtain ⟨hsl, hfp⟩ : f.segmentLength = 0 ∧ f.fingerprints.length = 0 := by
      unfold Fuse.tryFrom fuseFromImpl at h
      rw [if_neg (by rintro ⟨_, h⟩; exact h List.nodup_nil)] at h
      simp only [Nat.zero_div, Nat.zero_mul] at h
      obtain ⟨⟨stk, sd⟩, _, h⟩ := Res.bind_eq_ok.1 h
      obtain ⟨B, hB, h⟩ := Res.bind_eq_ok.1 h
      cases h
      refine ⟨rfl, ?_⟩
      cases stk with
      | nil =>
        simp only [foldRes, Res.ok.injEq] at hB
        rw [← hB]; rfl
      | cons ki stk =>
        exfalso
        unfold foldRes at hB
        obtain ⟨B', hB', _⟩ := Res.bind_eq_ok.1 hB
        unfold fuseAssignStep at hB'
        simp only [List.range_zero, List.map_nil] at hB'
        have hr : ∀ i, rd ([] : List (BitVec w)) i = .panic := fun i => rfl
        simp only [hr] at hB'
        split_ifs at hB' <;> cases hB'
    exact hne hfp

/-! ## C75 -/

namespace Spec

/-- Keys that can be peeled touch at least as many slots as there are keys. -/
theorem Peels.exists_slots {α : Type} {touch : α → Nat → Prop} :
    ∀ {order : List α}, Peels touch order →
      ∃ S : Finset Nat, S.card = order.length ∧ ∀ s ∈ S, ∃ k ∈ order, touch k s
  | [], _ => ⟨∅, rfl, by simp⟩
  | k :: ks, h => by
    obtain ⟨⟨s, hs, hn⟩, hp⟩ := h
    obtain ⟨S, hS, hT⟩ := hp.exists_slots
    have hs' : s ∉ S := fun hm => by
      obtain ⟨k', hk', ht⟩ := hT s hm
      exact hn k' hk' ht
    refine ⟨insert s S, by rw [Finset.card_insert_of_notMem hs', hS, List.length_cons], fun x hx => ?_⟩
    rcases Finset.mem_insert.1 hx with rfl | hx
    · exact ⟨k, by simp, hs⟩
    · obtain ⟨k', hk', ht⟩ := hT x hx
      exact ⟨k', by simp [hk'], ht⟩

/-- When every key touches at least three slots the bound improves by two: the last key peeled touches three slots, none of
which is used up by another key. -/
theorem Peels.exists_slots_three {α : Type} {touch : α → Nat → Prop} :
    ∀ {order : List α}, order ≠ [] → Peels touch order →
      (∀ k ∈ order, ∃ S : Finset Nat, S.card = 3 ∧ ∀ s ∈ S, touch k s) →
      ∃ S : Finset Nat, S.card = order.length + 2 ∧ ∀ s ∈ S, ∃ k ∈ order, touch k s
  | [], h, _, _ => absurd rfl h
  | [k], _, _, h3 => by
    obtain ⟨S, hS, hT⟩ := h3 k (by simp)
    exact ⟨S, hS, fun s hs => ⟨k, by simp, hT s hs⟩⟩
  | k :: k₁ :: ks, _, h, h3 => by
    obtain ⟨⟨s, hs, hn⟩, hp⟩ := h
    obtain ⟨S, hS, hT⟩ := Peels.exists_slots_three (order := k₁ :: ks) (by simp) hp
      (fun x hx => h3 x (List.mem_cons_of_mem _ hx))
    have hs' : s ∉ S := fun hm => by
      obtain ⟨k', hk', ht⟩ := hT s hm
      exact hn k' hk' ht
    refine ⟨insert s S, by rw [Finset.card_insert_of_notMem hs', hS]; simp only [List.length_cons], fun x hx => ?_⟩
    rcases Finset.mem_insert.1 hx with rfl | hx
    · exact ⟨k, by simp, hs⟩
    · obtain ⟨k', hk', ht⟩ := hT x hx
      exact ⟨k', List.mem_cons_of_mem _ hk', ht⟩

theorem CanPeel.length_le {α : Type} {touch : α → Nat → Prop} {keys : List α} {N : Nat}
    (h : CanPeel touch keys) (hne : keys ≠ []) (h3 : ∀ k ∈ keys, ∃ S : Finset Nat, S.card = 3 ∧ ∀ s ∈ S, touch k s)
    (hN : ∀ k ∈ keys, ∀ s, touch k s → s < N) : keys.length + 2 ≤ N := by
  obtain ⟨order, hp, ho⟩ := h
  obtain ⟨S, hS, hT⟩ := ho.exists_slots_three (fun e => hne (by rw [e] at hp; exact hp.nil_eq.symm))
    (fun k hk => h3 k (hp.mem_iff.1 hk))
  have : S ⊆ Finset.range N := fun s hs => by
    obtain ⟨k, hk, ht⟩ := hT s hs
    exact Finset.mem_range.2 (hN k (hp.mem_iff.1 hk) s ht)
  have := Finset.card_le_card this
  rw [Finset.card_range, hS, hp.length_eq] at this
  exact this

end Spec

/-- **C75.** Whenever rounding the capacity down to a multiple of 102 leaves fewer than `n + 2` cells for `n` keys, Fuse
construction fails for *every* choice of distinct keys (all 1000 attempts are wasted). The bound is sharp: C91. -/
theorem C75_fuse_too_small (w : Nat) (prof : Profile) (fp0 : Nat → BitVec w) (keys : List U64)
    (hl : keys.length < 2 ^ 32) (h90 : 90 ≤ keys.length) (hnd : keys.Nodup)
    (hsmall : 1000 * keys.length / 879 / 102 * 102 < keys.length + 2) :
    Fuse.tryFrom w prof (fuseC0 keys.length) fp0 keys = .err .filterFailed := by
  have hc := fuseC0_eq (n := keys.length) (by omega)
  rcases C57_fuse w prof (fuseC0 keys.length) (by rw [hc]; omega) fp0 keys hl hnd with
    ⟨f, t, _, _, _, hp, _⟩ | ⟨h, _⟩
  · exfalso
    have hsl : 0 < fuseC0 keys.length / 102 := by rw [hc]; omega
    have := hp.length_le (N := 102 * (fuseC0 keys.length / 102)) (by rintro rfl; simp at h90) (fun k _ =>
      ⟨(fuseHset (fuseC0 keys.length / 102) (mix k (splitmixSeed 1#64 t))).toFinset, by
        rw [List.toFinset_card_of_nodup (fuseHset_spec hsl _).1]; rfl, fun s hs => List.mem_toFinset.1 hs⟩)
      (fun k _ s hs => by
      exact (fuseHset_spec hsl (mix k (splitmixSeed 1#64 t))).2 s hs)
    rw [hc] at this
    omega
  · exact h

/-- **C75 (example range).** No Fuse filter can be built from 101 to 179 keys: release builds return an error for
every list of keys, distinct or not; debug builds return it for distinct keys and panic otherwise. -/
theorem C75_fuse_101_to_179 (w : Nat) (fp0 : Nat → BitVec w) (keys : List U64)
    (h1 : 101 ≤ keys.length) (h2 : keys.length ≤ 179) :
    Fuse.tryFrom w .release (fuseC0 keys.length) fp0 keys = .err .filterFailed ∧
    (keys.Nodup → Fuse.tryFrom w .debug (fuseC0 keys.length) fp0 keys = .err .filterFailed) ∧
    (¬ keys.Nodup → Fuse.tryFrom w .debug (fuseC0 keys.length) fp0 keys = .panic) := by
  have hs : 1000 * keys.length / 879 / 102 * 102 < keys.length + 2 := by
    have : 1000 * keys.length / 879 / 102 = 1 := by omega
    omega
  refine ⟨?_, fun hn => C75_fuse_too_small w _ fp0 keys (by omega) (by omega) hn hs, fun hn => ?_⟩
  · by_cases hn : keys.Nodup
    · exact C75_fuse_too_small w _ fp0 keys (by omega) (by omega) hn hs
    · exact C53_fuse_duplicates w _ fp0 keys (by omega)
        (by rw [fuseC0_eq (by omega)]; omega) hn
  · unfold Fuse.tryFrom fuseFromImpl
    rw [if_pos ⟨rfl, hn⟩]

/-- Both hypotheses of C75 are met, also outside the example range, and not for all sizes. -/
example : 1000 * 717 / 879 / 102 * 102 < 717 + 2 ∧ ¬ 1000 * 1000 / 879 / 102 * 102 < 1000 + 2 := by decide

/-! ## C76 -/

/-- The layout in terms of the capacity asked for. -/
theorem bfLayout_ok {size segExp cap0 : Nat} (h : (if size > 1 then cap0 else 0) + 3 * 262144 < 2 ^ 32) :
    ∃ lay, bfLayout size segExp cap0 = .ok lay ∧
      lay.geom.segmentLength.toNat = segmentLength size segExp ∧
      lay.arrayLen % segmentLength size segExp = 0 ∧ 3 * segmentLength size segExp ≤ lay.arrayLen ∧
      (if size > 1 then cap0 else 0) ≤ lay.arrayLen ∧
      lay.arrayLen ≤ max (3 * segmentLength size segExp)
        ((if size > 1 then cap0 else 0) + segmentLength size segExp - 1) := by
  obtain ⟨s, hs, hsl⟩ := segmentLength_pow size segExp
  generalize hcap : (if size > 1 then cap0 else 0) = cap at h ⊢
  have hL0 : 0 < segmentLength size segExp := by rw [hsl]; positivity
  have hL1 : segmentLength size segExp ≤ 262144 := by
    rw [hsl]
    calc 2 ^ s ≤ 2 ^ 18 := Nat.pow_le_pow_right (by norm_num) hs
      _ = 262144 := by norm_num
  generalize hL : segmentLength size segExp = L at *
  have hdiv : ((cap + L - 1) / L * L + L - 1) / L = (cap + L - 1) / L := by
    rw [Nat.div_eq_iff hL0]
    have := Nat.div_mul_le_self (cap + L - 1) L
    constructor <;> omega
  have hge : cap ≤ (cap + L - 1) / L * L := by
    have := Nat.lt_div_mul_add (a := cap + L - 1) (b := L) hL0
    omega
  have hle : (cap + L - 1) / L * L ≤ cap + L - 1 := Nat.div_mul_le_self _ _
  generalize hn : (cap + L - 1) / L = k at *
  have hk : ∃ c, (if k < 3 then 1 else k - (3 - 1)) = c ∧ (k < 3 ∧ c = 1 ∨ 3 ≤ k ∧ c + 2 = k) := by
    refine ⟨_, rfl, ?_⟩
    split <;> omega
  obtain ⟨c, hc, hc'⟩ := hk
  have hAL : (c + 3 - 1) * L = 3 * L ∧ k < 3 ∨ (c + 3 - 1) * L = k * L ∧ 3 ≤ k := by
    rcases hc' with ⟨h1, h2⟩ | ⟨h1, h2⟩
    · left; subst h2; exact ⟨rfl, h1⟩
    · right; exact ⟨by rw [← h2]; rfl, h1⟩
  have hkL : k < 3 → k * L ≤ 3 * L := fun h => Nat.mul_le_mul_right _ (by omega)
  have hkL' : 3 ≤ k → 3 * L ≤ k * L := fun h => Nat.mul_le_mul_right _ h
  have hmod : (c + 3 - 1) * L % L = 0 := Nat.mul_mod_left _ _
  unfold bfLayout
  simp only [hL, hcap, hn, hdiv, hc]
  rw [if_neg (by
    push Not
    refine ⟨by omega, by omega, ?_⟩
    rcases hAL with ⟨e, _⟩ | ⟨e, _⟩ <;> omega)]
  refine ⟨_, rfl, ?_, hmod, ?_, ?_, ?_⟩
  · simp only [BitVec.toNat_ofNat]
    exact Nat.mod_eq_of_lt (by omega)
  · show 3 * L ≤ (c + 3 - 1) * L
    rcases hAL with ⟨e, _⟩ | ⟨e, e'⟩
    · omega
    · have := hkL' e'; omega
  · show cap ≤ (c + 3 - 1) * L
    rcases hAL with ⟨e, e'⟩ | ⟨e, _⟩
    · have := hkL e'; omega
    · omega
  · show (c + 3 - 1) * L ≤ _
    rcases hAL with ⟨e, _⟩ | ⟨e, _⟩
    · rw [e]; exact le_max_left _ _
    · rw [e]; exact hle.trans (le_max_right _ _)

theorem idealCap_ge (n : Nat) : 1.125 * (n : ℝ) ≤ idealCap n := by
  unfold idealCap
  rw [mul_comm]
  exact mul_le_mul_of_nonneg_left (le_max_left _ _) (by positivity)

theorem idealCap_large {n : Nat} (h : 1000000 ≤ n) : idealCap n = 1.125 * n := by
  unfold idealCap
  have hlog : Real.log 1000000 ≤ Real.log n := Real.log_le_log (by norm_num) (by exact_mod_cast h)
  have hp : 0 < Real.log 1000000 := Real.log_pos (by norm_num)
  have : 0.25 * Real.log 1000000 / Real.log n ≤ 0.25 := by
    rw [div_le_iff₀ (by linarith)]; linarith
  rw [max_eq_left (by linarith), mul_comm]

theorem idealCap_small {n : Nat} (h2 : 2 ≤ n) : idealCap n ≤ 5.875 * n := by
  unfold idealCap
  have h20 : Real.log 1000000 ≤ 20 * Real.log 2 := by
    have : Real.log 1000000 ≤ Real.log ((2 : ℝ) ^ 20) := Real.log_le_log (by norm_num) (by norm_num)
    rw [Real.log_pow] at this
    exact_mod_cast this
  have hl2 : 0 < Real.log 2 := Real.log_pos (by norm_num)
  have hn : Real.log 2 ≤ Real.log n := Real.log_le_log (by norm_num) (by exact_mod_cast h2)
  have : 0.25 * Real.log 1000000 / Real.log n ≤ 5 := by
    rw [div_le_iff₀ (by linarith)]; linarith
  rw [mul_comm]
  exact mul_le_mul_of_nonneg_right (max_le (by norm_num) (by linarith)) (by positivity)

theorem idealCap_bound {n : Nat} (h2 : 2 ≤ n) (h : n ≤ 3800000000) : idealCap n ≤ 4275000000 := by
  have hn : (n : ℝ) ≤ 3800000000 := by exact_mod_cast h
  by_cases hM : 1000000 ≤ n
  · rw [idealCap_large hM]; linarith
  · have := idealCap_small h2
    have hn' : (n : ℝ) ≤ 1000000 := by exact_mod_cast (by omega : n ≤ 1000000)
    linarith

/-- **C76 (layout).** For any accurate `log` and up to 3.8 billion keys, the geometry of a binary fuse filter is
computed without overflow. The number of cells is the ideal `n * max(1.125, 0.875 + 0.25 ln 10^6 / ln n)` up to
one segment; the segment length is the ideal `2^⌊ln n / ln 3.33 + 2.25⌋`, at most 2^18, for every `n` whose
ideal exponent is not within `2^-36` of an integer. -/
theorem C76_layout (log : ℚ → ℚ) (hlog : LogAccurate log) (n : Nat) (h2 : 2 ≤ n) (h : n ≤ 3800000000) :
    ∃ (lay : Layout) (e : Nat), bfLayout n (bfSegExp log n) (bfCap0 log n) = .ok lay ∧
      lay.geom.segmentLength.toNat = min (2 ^ e) 262144 ∧
      (e : ℝ) ≤ idealExp n + 1 / 2 ^ 36 ∧ idealExp n < e + 1 + 1 / 2 ^ 36 ∧ e ≤ 20 ∧
      9 * n ≤ 8 * lay.arrayLen + 4 ∧ n < lay.arrayLen ∧
      idealCap n - 0.501 ≤ lay.arrayLen ∧
      lay.arrayLen ≤ max (3 * (lay.geom.segmentLength.toNat : ℝ))
        (idealCap n + lay.geom.segmentLength.toNat) := by
  have hb := idealCap_bound h2 h
  have hcap := abs_le.1 (bfCap0_accurate hlog h2 (by omega) (by linarith))
  have hexp := bfSegExp_accurate hlog (n := n) (by omega) (by omega)
  have hI20 : idealExp n ≤ 20.75 := by
    unfold idealExp
    have hL := log_333
    have : Real.log n / Real.log 3.33 ≤ 18.5 := by
      rw [div_le_iff₀ (by linarith)]
      have := log_nat_le (n := n) (by omega) (by omega)
      have := Real.log_two_lt_d9
      linarith
    linarith
  have hcn : bfCap0 log n ≤ 4275000001 := by
    have : (bfCap0 log n : ℝ) < 4275000002 := by linarith [hcap.2]
    have : bfCap0 log n < 4275000002 := by exact_mod_cast this
    omega
  obtain ⟨lay, hlay, hsl, _, h3, hge, hle⟩ := bfLayout_ok (size := n) (segExp := bfSegExp log n)
    (cap0 := bfCap0 log n) (by rw [if_pos (by omega)]; omega)
  rw [if_pos (by omega)] at hge hle
  have hsl' : lay.geom.segmentLength.toNat = min (2 ^ bfSegExp log n) 262144 := by
    rw [hsl]; unfold segmentLength; rw [if_neg (by omega)]
  have hge' : (bfCap0 log n : ℝ) ≤ lay.arrayLen := by exact_mod_cast hge
  have h98 : 9 * n ≤ 8 * bfCap0 log n + 4 := by
    have := idealCap_ge n
    have : (9 * n : ℝ) < 8 * bfCap0 log n + 5 := by linarith [hcap.1]
    have : 9 * n < 8 * bfCap0 log n + 5 := by exact_mod_cast this
    omega
  refine ⟨lay, bfSegExp log n, hlay, hsl', hexp.1, hexp.2, ?_, by omega, ?_, by linarith [hcap.1], ?_⟩
  · have h36 : (1 : ℝ) / 2 ^ 36 ≤ 0.1 := by norm_num
    have : (bfSegExp log n : ℝ) < 21 := by linarith [hexp.1]
    have : bfSegExp log n < 21 := by exact_mod_cast this
    omega
  · by_cases h4 : 5 ≤ n
    · omega
    · -- at most four keys: three segments of at least four cells
      have he : 2 ≤ bfSegExp log n := by
        by_contra hlt
        have : bfSegExp log n ≤ 1 := by omega
        have : (bfSegExp log n : ℝ) ≤ 1 := by exact_mod_cast this
        have hq : 0 ≤ Real.log n / Real.log 3.33 :=
          div_nonneg (Real.log_nonneg (by exact_mod_cast (by omega : 1 ≤ n))) (by linarith [log_333])
        have := hexp.2
        unfold idealExp at this
        norm_num at this hq
        linarith
      have : 2 ^ 2 ≤ 2 ^ bfSegExp log n := Nat.pow_le_pow_right (by norm_num) he
      have : 4 ≤ lay.geom.segmentLength.toNat := by rw [hsl']; omega
      rw [← hsl] at h3
      omega
  · have h1 : (lay.arrayLen : ℝ) ≤ (max (3 * lay.geom.segmentLength.toNat)
        (bfCap0 log n + lay.geom.segmentLength.toNat - 1) : ℕ) := by
      rw [hsl]; exact_mod_cast hle
    rw [Nat.cast_max] at h1
    refine h1.trans (max_le_max (by push_cast; exact le_rfl) ?_)
    have hs0 : 1 ≤ lay.geom.segmentLength.toNat := by
      rw [hsl']
      have : 0 < 2 ^ bfSegExp log n := by positivity
      omega
    rw [Nat.cast_sub (by omega)]
    push_cast
    linarith [hcap.2]

/-- **C76 (no keys, one key).** A filter of at most one key has twelve cells. -/
theorem C76_tiny (log : ℚ → ℚ) (hlog : LogAccurate log) (n : Nat) (h : n ≤ 1) :
    ∃ lay, bfLayout n (bfSegExp log n) (bfCap0 log n) = .ok lay ∧ lay.arrayLen = 12 := by
  have hsl : segmentLength n (bfSegExp log n) = 4 := by
    unfold segmentLength
    split
    · rfl
    · rename_i h0
      have hn : n = 1 := by omega
      subst hn
      have he := bfSegExp_accurate hlog (n := 1) le_rfl (by norm_num)
      unfold idealExp at he
      simp only [Nat.cast_one, Real.log_one, zero_div, zero_add] at he
      have h36 : (1 : ℝ) / 2 ^ 36 ≤ 0.1 := by norm_num
      have e1 : (bfSegExp log 1 : ℝ) < 3 := by linarith [he.1]
      have e2 : (1 : ℝ) < bfSegExp log 1 := by linarith [he.2]
      have e1' : bfSegExp log 1 < 3 := by exact_mod_cast e1
      have e2' : 1 < bfSegExp log 1 := by exact_mod_cast e2
      have : bfSegExp log 1 = 2 := by omega
      rw [this]; rfl
  obtain ⟨lay, hlay, _, _, h3, _, hle⟩ := bfLayout_ok (size := n) (segExp := bfSegExp log n)
    (cap0 := bfCap0 log n) (by rw [if_neg (by omega)]; norm_num)
  rw [hsl] at h3 hle
  rw [if_neg (by omega)] at hle
  exact ⟨lay, hlay, by omega⟩

theorem foldRes_length {α β : Type} {f : List β → α → Res (List β)}
    (h : ∀ s a s', f s a = .ok s' → s'.length = s.length) :
    ∀ (l : List α) (s s' : List β), foldRes f s l = .ok s' → s'.length = s.length
  | [], s, s', e => by cases e; rfl
  | a :: l, s, s', e => by
    rw [foldRes_cons] at e
    obtain ⟨s₁, h1, h2⟩ := Res.bind_eq_ok.1 e
    rw [foldRes_length h l s₁ s' h2, h s a s₁ h1]

theorem wr_length' {α : Type} {l l' : List α} {i : Nat} {x : α} (h : wr l i x = .ok l') :
    l'.length = l.length := by
  unfold wr at h
  split at h
  · cases h; simp
  · cases h

/-- **C76 (`len`).** Whatever the keys: a binary fuse filter that was built has as many cells as the layout says,
between `1.125 n - 1/2` and the ideal number plus one segment (or three segments). -/
theorem C76_len (log : ℚ → ℚ) (hlog : LogAccurate log) (w : Nat) (prof : Profile) (fp0 : Nat → BitVec w)
    (keys : List U64) (h2 : 2 ≤ keys.length) (hn : keys.length ≤ 3800000000) (f : BinaryFuse w)
    (hf : BinaryFuse.tryFrom w prof (bfSegExp log keys.length) (bfCap0 log keys.length) fp0 keys = .ok f) :
    keys.length < f.len ∧ 9 * keys.length ≤ 8 * f.len + 4 ∧
      (f.len : ℝ) ≤ max (3 * (f.geom.segmentLength.toNat : ℝ))
        (idealCap keys.length + f.geom.segmentLength.toNat) := by
  obtain ⟨lay, e, hlay, _, _, _, _, h98, hlt, _, hup⟩ := C76_layout log hlog keys.length h2 hn
  unfold BinaryFuse.tryFrom at hf
  rw [bfuseXFromImpl_eq, hlay] at hf
  split at hf
  · cases hf
  · rw [Res.bind_ok] at hf
    obtain ⟨⟨stk, sd⟩, _, hf⟩ := Res.bind_eq_ok.1 hf
    obtain ⟨fp, ha, hf⟩ := Res.bind_eq_ok.1 hf
    cases hf
    have hl : fp.length = lay.arrayLen := by
      rw [foldRes_length (fun s a s' h => ?_) _ _ _ ha]
      · simp
      · unfold assignStepX at h
        obtain ⟨hash, found⟩ := a
        simp only at h
        obtain ⟨_, _, h⟩ := Res.bind_eq_ok.1 h
        obtain ⟨_, _, h⟩ := Res.bind_eq_ok.1 h
        obtain ⟨_, _, h⟩ := Res.bind_eq_ok.1 h
        obtain ⟨_, _, h⟩ := Res.bind_eq_ok.1 h
        obtain ⟨_, _, h⟩ := Res.bind_eq_ok.1 h
        exact wr_length' h
    unfold BinaryFuse.len
    simp only [hl]
    exact ⟨hlt, h98, hup⟩

/-- **C76 (key-value database).** The matrix of a key-value database of `n` keys, and hence every keyword query, has
at least `1.125 n - 1/2` rows; from a million keys on, at most `1.125 n + 2^18`. -/
theorem C76_kv_height (log : ℚ → ℚ) (hlog : LogAccurate log) (prof : Profile) (fp0 : Nat → Nat → U32)
    (filterSeed : List U8) (kvs : List KeyValue) (m T b : Nat) (h2 : 2 ≤ kvs.length)
    (hn : kvs.length ≤ 3800000000) (db : KVDatabase)
    (h : KVDatabase.new prof (bfSegExp log kvs.length) (bfCap0 log kvs.length) fp0 filterSeed kvs m T b = .ok db) :
    ∃ height, db.getMatrixHeight = .ok height ∧ (∀ col ∈ db.entries, col.length = height) ∧
      kvs.length < height ∧ 9 * kvs.length ≤ 8 * height + 4 ∧
      (1000000 ≤ kvs.length → 8 * height ≤ 9 * kvs.length + 8 * 2 ^ 18) := by
  obtain ⟨lay, p, w, h0, _, hw0, hlay, _, _, _, _, _, hel, hcols⟩ := kvNew_ok h
  obtain ⟨lay', e, hlay', hsl, _, _, _, h98, hlt, _, hup⟩ := C76_layout log hlog kvs.length h2 hn
  rw [hlay] at hlay'
  cases hlay'
  have hall : ∀ col ∈ db.entries, col.length = lay.arrayLen := by
    intro col hc
    obtain ⟨j, hj, rfl⟩ := List.mem_iff_getElem.1 hc
    obtain ⟨_, _, _, _, _, _, _, _, _, h⟩ := hcols j hj
    exact h
  refine ⟨lay.arrayLen, ?_, hall, hlt, h98, fun hM => ?_⟩
  · unfold KVDatabase.getMatrixHeight
    have h0' : 0 < db.entries.length := by omega
    have : rd db.entries 0 = .ok db.entries[0] := by
      unfold rd; rw [List.getElem?_eq_getElem h0']
    rw [this]
    simp only [Res.bind_ok]
    rw [hall _ (List.getElem_mem _)]
  · rw [idealCap_large hM] at hup
    have hs : (lay.geom.segmentLength.toNat : ℝ) ≤ 262144 := by
      rw [hsl]; exact_mod_cast min_le_right _ _
    have hM' : (1000000 : ℝ) ≤ kvs.length := by exact_mod_cast hM
    have h1 : (lay.arrayLen : ℝ) ≤ 1.125 * kvs.length + 262144 :=
      hup.trans (max_le (by linarith) (by linarith))
    have h2 : (8 * lay.arrayLen : ℝ) ≤ 9 * kvs.length + 8 * 2 ^ 18 := by linarith
    exact_mod_cast h2

/-- The hypothesis on `log` can be met, so C76 is not vacuous. -/
example : ∃ log, LogAccurate log ∧
    ∃ lay, bfLayout 1000 (bfSegExp log 1000) (bfCap0 log 1000) = .ok lay ∧ 1125 ≤ lay.arrayLen := by
  obtain ⟨log, h⟩ := exists_logAccurate
  obtain ⟨lay, _, h1, _, _, _, _, h2, _⟩ := C76_layout log h 1000 (by norm_num) (by norm_num)
  exact ⟨log, h, lay, h1, by omega⟩

end Chalamet
