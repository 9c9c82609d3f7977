import Verif.Props.BFuse
import Mathlib.Data.Nat.Choose.Bounds
import Mathlib.Data.Finset.Card
import Mathlib.Algebra.BigOperators.Ring.Finset
import Mathlib.Algebra.Module.Defs
import Mathlib.Algebra.BigOperators.Fin
import Mathlib.Data.Fintype.BigOperators
import Mathlib.Order.Interval.Finset.Nat
import Mathlib.Tactic.Positivity
import Mathlib.Tactic.Linarith

/-! How many hashes touch a slot, and how many tuples of hashes overload one (helper lemmas). -/

namespace Chalamet
open Finset

theorem interval_bounds {M Lc v h : Nat} (hL : 0 < Lc) (e : h * Lc / M = v) (hM : 0 < M) :
    v * M / Lc ≤ h ∧ h ≤ v * M / Lc + (M / Lc + 1) := by
  have h1 : v * M ≤ h * Lc := by rw [← e]; exact Nat.div_mul_le_self _ _
  have h2 : h * Lc < (v + 1) * M := by
    rw [← e, Nat.add_mul, Nat.one_mul]
    have h5 := Nat.div_add_mod (h * Lc) M
    have h6 := Nat.mod_lt (h * Lc) hM
    rw [Nat.mul_comm] at h5
    omega
  constructor
  · exact Nat.div_le_of_le_mul (by rw [Nat.mul_comm Lc]; exact h1)
  · have h3 : v * M < (v * M / Lc + 1) * Lc := by
      have := Nat.lt_mul_div_succ (v * M) hL
      rwa [Nat.mul_comm Lc] at this
    have h4 : M < (M / Lc + 1) * Lc := by
      have := Nat.lt_mul_div_succ M hL
      rwa [Nat.mul_comm Lc] at this
    by_contra hc
    have h5 : (v * M / Lc + (M / Lc + 1) + 1) * Lc ≤ h * Lc := Nat.mul_le_mul_right _ (by omega)
    have e1 : (v * M / Lc + (M / Lc + 1) + 1) * Lc = (v * M / Lc + 1) * Lc + (M / Lc + 1) * Lc := by ring
    have e2 : (v + 1) * M = v * M + M := by ring
    omega

theorem card_first {M Lc v : Nat} (hL : 0 < Lc) (hM : 0 < M) :
    ((range M).filter fun h => h * Lc / M = v).card ≤ M / Lc + 2 := by
  have h : (range M).filter (fun h => h * Lc / M = v) ⊆ Icc (v * M / Lc) (v * M / Lc + (M / Lc + 1)) := by
    intro h hh
    rw [mem_filter] at hh
    rw [mem_Icc]
    exact interval_bounds hL hh.2 hM
  have := card_le_card h
  rw [Nat.card_Icc] at this
  refine this.trans ?_
  generalize v * M / Lc = a
  generalize M / Lc = b
  omega

theorem card_interval_res {M Lc v s j c : Nat} (hL : 0 < Lc) (hM : 0 < M) :
    ((range M).filter fun h => h * Lc / M = v ∧ h / 2 ^ j % 2 ^ s = c).card ≤ ((M / Lc + 2) / 2 ^ (s + j) + 2) * 2 ^ j := by
  have hpos : 0 < 2 ^ (s + j) := by positivity
  have h := card_le_card_of_injOn (s := (range M).filter fun h => h * Lc / M = v ∧ h / 2 ^ j % 2 ^ s = c)
    (t := Icc (v * M / Lc / 2 ^ (s + j)) (v * M / Lc / 2 ^ (s + j) + (M / Lc + 2) / 2 ^ (s + j) + 1) ×ˢ range (2 ^ j))
    (fun h => (h / 2 ^ (s + j), h % 2 ^ j)) (by
      intro h hh
      have hh := mem_filter.1 (mem_coe.1 hh)
      obtain ⟨h1, h2⟩ := interval_bounds hL hh.2.1 hM
      rw [mem_coe, mem_product, mem_Icc, mem_range]
      refine ⟨⟨Nat.div_le_div_right h1, ?_⟩, Nat.mod_lt _ (by positivity)⟩
      have h3 : h / 2 ^ (s + j) ≤ (v * M / Lc + (M / Lc + 2)) / 2 ^ (s + j) := Nat.div_le_div_right (by omega)
      have h5 := Nat.add_div (a := v * M / Lc) (b := M / Lc + 2) hpos
      simp only at *
      rw [h5] at h3
      split at h3 <;> omega) (by
      intro a ha b hb hab
      have ha := (mem_filter.1 (mem_coe.1 ha)).2.2
      have hb := (mem_filter.1 (mem_coe.1 hb)).2.2
      simp only [Prod.mk.injEq] at hab
      obtain ⟨e1, e2⟩ := hab
      rw [Nat.add_comm, Nat.pow_add, ← Nat.div_div_eq_div_mul, ← Nat.div_div_eq_div_mul] at e1
      have e3 : a / 2 ^ j = b / 2 ^ j := by
        rw [← Nat.div_add_mod (a / 2 ^ j) (2 ^ s), ← Nat.div_add_mod (b / 2 ^ j) (2 ^ s), e1, ha, hb]
      rw [← Nat.div_add_mod a (2 ^ j), ← Nat.div_add_mod b (2 ^ j), e3, e2])
  refine h.trans (le_of_eq ?_)
  rw [card_product, Nat.card_Icc, card_range]
  congr 1
  generalize v * M / Lc / 2 ^ (s + j) = a
  generalize (M / Lc + 2) / 2 ^ (s + j) = b
  omega

theorem card_segment {M Lc s j σ : Nat} (c : Nat → Nat) (hL : 0 < Lc) (hM : 0 < M) :
    ((range M).filter fun h => h * Lc / M / 2 ^ s = σ ∧ h / 2 ^ j % 2 ^ s = c (h * Lc / M)).card ≤
      (M / Lc + 2) + 2 ^ (s + j + 1) := by
  have hsub : ((range M).filter fun h => h * Lc / M / 2 ^ s = σ ∧ h / 2 ^ j % 2 ^ s = c (h * Lc / M)) ⊆
      (Ico (σ * 2 ^ s) (σ * 2 ^ s + 2 ^ s)).biUnion fun v =>
        (range M).filter fun h => h * Lc / M = v ∧ h / 2 ^ j % 2 ^ s = c v := by
    intro h hh
    rw [mem_filter] at hh
    rw [mem_biUnion]
    refine ⟨h * Lc / M, ?_, mem_filter.2 ⟨hh.1, rfl, hh.2.2⟩⟩
    rw [mem_Ico]
    have h1 := Nat.div_add_mod (h * Lc / M) (2 ^ s)
    have h2 := Nat.mod_lt (h * Lc / M) (show 0 < 2 ^ s by positivity)
    rw [hh.2.1, Nat.mul_comm] at h1
    omega
  refine (card_le_card hsub).trans (card_biUnion_le.trans ?_)
  refine (sum_le_sum fun v _ => card_interval_res (c := c v) hL hM).trans ?_
  rw [sum_const, Nat.card_Ico, Nat.add_sub_cancel_left, smul_eq_mul]
  have h1 : (M / Lc + 2) / 2 ^ (s + j) * 2 ^ (s + j) ≤ M / Lc + 2 := Nat.div_mul_le_self _ _
  have h2 : 2 ^ s * (((M / Lc + 2) / 2 ^ (s + j) + 2) * 2 ^ j) =
      (M / Lc + 2) / 2 ^ (s + j) * 2 ^ (s + j) + 2 ^ (s + j + 1) := by
    rw [pow_succ, pow_add]; ring
  omega

/-- The three slots of a hash as numbers. -/
theorem slot_eq {g : Geom} {len s k : Nat} (hg : g.WF len s k) (hs : s ≤ 18) (h : U64) (t : Nat) :
    (slotN g h 0 = t → h.toNat * (k * 2 ^ s) / 2 ^ 64 = t) ∧
    (slotN g h 1 = t → h.toNat * (k * 2 ^ s) / 2 ^ 64 / 2 ^ s + 1 = t / 2 ^ s ∧
      h.toNat / 2 ^ 18 % 2 ^ s = (h.toNat * (k * 2 ^ s) / 2 ^ 64 + 2 ^ s) ^^^ t) ∧
    (slotN g h 2 = t → h.toNat * (k * 2 ^ s) / 2 ^ 64 / 2 ^ s + 2 = t / 2 ^ s ∧
      h.toNat / 2 ^ 0 % 2 ^ s = (h.toNat * (k * 2 ^ s) / 2 ^ 64 + 2 ^ s + 2 ^ s) ^^^ t) := by
  have hpos := Nat.two_pow_pos s
  have hlt := h.isLt
  have hlen := hg.len_lt
  have hl := hg.len_eq
  have hscl := hg.scl
  have hk := hg.kpos
  rw [Nat.add_mul] at hl
  have hkpos : 0 < k * 2 ^ s := Nat.mul_pos hk hpos
  have hhi : h.toNat * g.segmentCountLength.toNat / 2 ^ 64 < k * 2 ^ s := by
    rw [hscl]
    apply Nat.div_lt_of_lt_mul
    exact Nat.mul_lt_mul_of_pos_right hlt hkpos
  have h0 : (hashOfHash h g).1.toNat = h.toNat * (k * 2 ^ s) / 2 ^ 64 := by
    simp only [hashOfHash, BitVec.toNat_setWidth, BitVec.toNat_ofNat]
    rw [Nat.mod_eq_of_lt (a := h.toNat * _ / 2 ^ 64) (by omega), Nat.mod_eq_of_lt (by omega), hscl]
  obtain ⟨_, s1, s2⟩ := hashOfHash_segments hg h
  have h0lt : (hashOfHash h g).1.toNat < k * 2 ^ s := by rw [h0]; rw [hscl] at hhi; exact hhi
  have hs1 : ((hashOfHash h g).1 + g.segmentLength).toNat = (hashOfHash h g).1.toNat + 2 ^ s := by
    rw [BitVec.toNat_add, hg.sl]; exact Nat.mod_eq_of_lt (by omega)
  have hs2 : ((hashOfHash h g).1 + g.segmentLength + g.segmentLength).toNat =
      (hashOfHash h g).1.toNat + 2 ^ s + 2 ^ s := by
    rw [BitVec.toNat_add, hs1, hg.sl]; exact Nat.mod_eq_of_lt (by omega)
  have hd : (2 : Nat) ^ s ∣ 2 ^ 32 := pow_dvd_pow 2 (by omega)
  refine ⟨fun e => by rw [← e, ← h0]; rfl, fun e => ⟨by rw [← h0, ← e, slotN, s1], ?_⟩,
    fun e => ⟨by rw [← h0, ← e, show slotN g h 2 = (hashOfHash h g).2.2.toNat from rfl, s2], ?_⟩⟩
  · have e' : ((hashOfHash h g).1.toNat + 2 ^ s) ^^^ (h.toNat / 2 ^ 18 % 2 ^ s) = t := by
      rw [← e, ← hs1]
      show _ = (((hashOfHash h g).1 + g.segmentLength) ^^^ ((h >>> 18).setWidth 32 &&& g.segmentLengthMask)).toNat
      rw [BitVec.toNat_xor, BitVec.toNat_and, hg.mask, Nat.and_two_pow_sub_one_eq_mod, BitVec.toNat_setWidth,
        BitVec.toNat_ushiftRight, Nat.shiftRight_eq_div_pow, Nat.mod_mod_of_dvd _ hd]
    rw [← h0, ← e', ← Nat.xor_assoc, Nat.xor_self, Nat.zero_xor]
  · have e' : ((hashOfHash h g).1.toNat + 2 ^ s + 2 ^ s) ^^^ (h.toNat / 2 ^ 0 % 2 ^ s) = t := by
      rw [← e, ← hs2]
      show _ = (((hashOfHash h g).1 + g.segmentLength + g.segmentLength) ^^^ (h.setWidth 32 &&& g.segmentLengthMask)).toNat
      rw [BitVec.toNat_xor, BitVec.toNat_and, hg.mask, Nat.and_two_pow_sub_one_eq_mod, BitVec.toNat_setWidth,
        Nat.mod_mod_of_dvd _ hd, pow_zero, Nat.div_one]
    rw [← h0, ← e', ← Nat.xor_assoc, Nat.xor_self, Nat.zero_xor]

/-- An upper bound on the number of 64-bit hashes touching one slot, for `k` segments of `L` slots that can hold a first slot. -/
def Spec.slotHits (k L : Nat) : Nat := min 3 k * (2 ^ 64 / (k * L) + 2) + L * 2 ^ 19 + L * 2

theorem card_fin_le {M : Nat} (P : Nat → Prop) [DecidablePred P] (p : Fin M → Prop) [DecidablePred p] (h : ∀ x, p x → P x.val) :
    (univ.filter p).card ≤ ((range M).filter P).card :=
  card_le_card_of_injOn Fin.val (by
    intro x hx
    have hx := (mem_filter.1 (mem_coe.1 hx)).2
    rw [mem_coe, mem_filter, mem_range]
    exact ⟨x.2, h x hx⟩) (fun a _ b _ e => Fin.ext e)

theorem card_filter_zero_or {α : Type} {s : Finset α} {p : α → Prop} [DecidablePred p] {c : Prop} [Decidable c] {B : Nat}
    (h1 : (s.filter p).card ≤ B) (h2 : ∀ a ∈ s, p a → c) : (s.filter p).card ≤ if c then B else 0 := by
  split
  · exact h1
  · rename_i hc
    rw [filter_false_of_mem fun a ha hp => hc (h2 a ha hp), card_empty]

theorem hits_arith {k σ a u v : Nat} : (if σ < k then a else 0) + (if 1 ≤ σ ∧ σ < k + 1 then a + u else 0) +
    (if 2 ≤ σ ∧ σ < k + 2 then a + v else 0) ≤ min 3 k * a + u + v := by
  rcases k with _ | _ | _ | k
  · simp only [Nat.zero_add]
    split <;> split <;> split <;> omega
  · rw [show min 3 (0 + 1) = 1 from rfl]
    split <;> split <;> split <;> omega
  · rw [show min 3 (0 + 1 + 1) = 2 from rfl]
    split <;> split <;> split <;> omega
  · rw [show min 3 (k + 1 + 1 + 1) = 3 by omega]
    split <;> split <;> split <;> omega

theorem card_segment_fin {M Lc s j σ : Nat} (c : Nat → Nat) (hL : 0 < Lc) (hM : 0 < M) (p : Fin M → Prop) [DecidablePred p]
    (h : ∀ x, p x → x.val * Lc / M / 2 ^ s = σ ∧ x.val / 2 ^ j % 2 ^ s = c (x.val * Lc / M)) :
    (univ.filter p).card ≤ (M / Lc + 2) + 2 ^ (s + j + 1) :=
  (card_fin_le (fun h => h * Lc / M / 2 ^ s = σ ∧ h / 2 ^ j % 2 ^ s = c (h * Lc / M)) p h).trans (card_segment c hL hM)

theorem ofFin_toNat' (x : Fin (2 ^ 64)) : (BitVec.ofFin x).toNat = x.val := rfl

theorem card_on {g : Geom} {len s k : Nat} (hg : g.WF len s k) (hs : s ≤ 18) (t : Nat) :
    (univ.filter fun h : Fin (2 ^ 64) => on g t (BitVec.ofFin h) = true).card ≤ Spec.slotHits k (2 ^ s) := by
  have hL : 0 < k * 2 ^ s := Nat.mul_pos hg.kpos (by positivity)
  have hM : 0 < 2 ^ 64 := by positivity
  have c0 : (univ.filter fun h : Fin (2 ^ 64) => slotN g (BitVec.ofFin h) 0 = t).card ≤
      if t / 2 ^ s < k then 2 ^ 64 / (k * 2 ^ s) + 2 else 0 := by
    refine card_filter_zero_or ((card_fin_le (fun h => h * (k * 2 ^ s) / 2 ^ 64 = t) _ fun x hx => ?_).trans (card_first hL hM)) ?_
    · have h1 := (slot_eq hg hs (BitVec.ofFin x) t).1 hx
      rw [ofFin_toNat'] at h1
      exact h1
    · intro x _ hx
      rw [← hx]
      exact (hashOfHash_segments hg (BitVec.ofFin x)).1
  have c1 : (univ.filter fun h : Fin (2 ^ 64) => slotN g (BitVec.ofFin h) 1 = t).card ≤
      if 1 ≤ t / 2 ^ s ∧ t / 2 ^ s < k + 1 then 2 ^ 64 / (k * 2 ^ s) + 2 + 2 ^ (s + 18 + 1) else 0 := by
    refine card_filter_zero_or (card_segment_fin (M := 2 ^ 64) (Lc := k * 2 ^ s) (s := s) (j := 18) (σ := t / 2 ^ s - 1)
      (fun v => (v + 2 ^ s) ^^^ t) hL hM _ fun x hx => ?_) ?_
    · obtain ⟨h1, h2⟩ := (slot_eq hg hs (BitVec.ofFin x) t).2.1 hx
      rw [ofFin_toNat'] at h1 h2
      exact ⟨(Nat.sub_eq_of_eq_add h1.symm).symm, h2⟩
    · intro x _ hx
      obtain ⟨h1, h2, _⟩ := hashOfHash_segments hg (BitVec.ofFin x)
      rw [← hx]
      show 1 ≤ (hashOfHash (BitVec.ofFin x) g).2.1.toNat / 2 ^ s ∧ (hashOfHash (BitVec.ofFin x) g).2.1.toNat / 2 ^ s < k + 1
      rw [h2]
      exact ⟨Nat.le_add_left _ _, Nat.add_lt_add_right h1 _⟩
  have c2 : (univ.filter fun h : Fin (2 ^ 64) => slotN g (BitVec.ofFin h) 2 = t).card ≤
      if 2 ≤ t / 2 ^ s ∧ t / 2 ^ s < k + 2 then 2 ^ 64 / (k * 2 ^ s) + 2 + 2 ^ (s + 0 + 1) else 0 := by
    refine card_filter_zero_or (card_segment_fin (M := 2 ^ 64) (Lc := k * 2 ^ s) (s := s) (j := 0) (σ := t / 2 ^ s - 2)
      (fun v => (v + 2 ^ s + 2 ^ s) ^^^ t) hL hM _ fun x hx => ?_) ?_
    · obtain ⟨h1, h2⟩ := (slot_eq hg hs (BitVec.ofFin x) t).2.2 hx
      rw [ofFin_toNat'] at h1 h2
      exact ⟨(Nat.sub_eq_of_eq_add h1.symm).symm, h2⟩
    · intro x _ hx
      obtain ⟨h1, _, h2⟩ := hashOfHash_segments hg (BitVec.ofFin x)
      rw [← hx]
      show 2 ≤ (hashOfHash (BitVec.ofFin x) g).2.2.toNat / 2 ^ s ∧ (hashOfHash (BitVec.ofFin x) g).2.2.toNat / 2 ^ s < k + 2
      rw [h2]
      exact ⟨Nat.le_add_left _ _, Nat.add_lt_add_right h1 _⟩
  have hsub : (univ.filter fun h : Fin (2 ^ 64) => on g t (BitVec.ofFin h) = true) ⊆
      ((univ.filter fun h : Fin (2 ^ 64) => slotN g (BitVec.ofFin h) 0 = t) ∪
       (univ.filter fun h : Fin (2 ^ 64) => slotN g (BitVec.ofFin h) 1 = t)) ∪
       (univ.filter fun h : Fin (2 ^ 64) => slotN g (BitVec.ofFin h) 2 = t) := by
    intro x hx
    have hx := (mem_filter.1 hx).2
    unfold on at hx
    rw [decide_eq_true_eq] at hx
    rw [mem_union, mem_union, mem_filter, mem_filter, mem_filter]
    rcases hx with h | h | h
    · exact .inl (.inl ⟨mem_univ _, h.symm⟩)
    · exact .inl (.inr ⟨mem_univ _, h.symm⟩)
    · exact .inr ⟨mem_univ _, h.symm⟩
  have h1 := (card_le_card hsub).trans (card_union_le _ _)
  have h2 := card_union_le (univ.filter fun h : Fin (2 ^ 64) => slotN g (BitVec.ofFin h) 0 = t)
    (univ.filter fun h : Fin (2 ^ 64) => slotN g (BitVec.ofFin h) 1 = t)
  have h3 := hits_arith (k := k) (σ := t / 2 ^ s) (a := 2 ^ 64 / (k * 2 ^ s) + 2) (u := 2 ^ (s + 18 + 1)) (v := 2 ^ (s + 0 + 1))
  have e : Spec.slotHits k (2 ^ s) = min 3 k * (2 ^ 64 / (k * 2 ^ s) + 2) + 2 ^ (s + 18 + 1) + 2 ^ (s + 0 + 1) := by
    unfold Spec.slotHits
    rw [Nat.add_zero, pow_succ 2 s, Nat.add_assoc s 18 1, pow_add 2 s (18 + 1)]
  rw [e]
  exact h1.trans ((Nat.add_le_add (h2.trans (Nat.add_le_add c0 c1)) c2).trans h3)

theorem card_tuples {N r : Nat} {α : Type} [Fintype α] [DecidableEq α] (A : Finset α) :
    (univ.filter fun x : Fin N → α => r ≤ (univ.filter fun i => x i ∈ A).card).card ≤
      N.choose r * A.card ^ r * Fintype.card α ^ (N - r) := by
  have hsub : (univ.filter fun x : Fin N → α => r ≤ (univ.filter fun i => x i ∈ A).card) ⊆
      (powersetCard r (univ : Finset (Fin N))).biUnion fun S => Fintype.piFinset fun i => if i ∈ S then A else univ := by
    intro x hx
    have hx := (mem_filter.1 hx).2
    obtain ⟨S, hS, hc⟩ := exists_subset_card_eq hx
    rw [mem_biUnion]
    refine ⟨S, mem_powersetCard.2 ⟨subset_univ _, hc⟩, ?_⟩
    rw [Fintype.mem_piFinset]
    intro i
    split
    · rename_i hi
      exact (mem_filter.1 (hS hi)).2
    · exact mem_univ _
  refine (card_le_card hsub).trans (card_biUnion_le.trans ?_)
  have h : ∀ S ∈ powersetCard r (univ : Finset (Fin N)),
      (Fintype.piFinset fun i => if i ∈ S then A else univ).card = A.card ^ r * Fintype.card α ^ (N - r) := by
    intro S hS
    have hc := (mem_powersetCard.1 hS).2
    rw [Fintype.card_piFinset, prod_congr rfl (fun i _ => apply_ite card (i ∈ S) A univ), prod_ite, prod_const, prod_const,
      filter_mem_eq_inter, univ_inter, hc, card_univ]
    congr 2
    rw [filter_not, filter_mem_eq_inter, univ_inter, card_sdiff_of_subset (subset_univ _), card_univ, Fintype.card_fin, hc]
  rw [sum_congr rfl h, sum_const, card_powersetCard, card_univ, Fintype.card_fin, smul_eq_mul, mul_assoc]

theorem countP_ofFn {α : Type} {n : Nat} (f : Fin n → α) (p : α → Bool) :
    (List.ofFn f).countP p = (univ.filter fun i => p (f i) = true).card := by
  rw [card_filter]
  induction n with
  | zero => simp
  | succ n ih =>
    rw [List.ofFn_succ, List.countP_cons, ih, Fin.sum_univ_succ, Nat.add_comm]

/-- The list of the words `x`. -/
def Spec.wordList {N : Nat} (x : Fin N → Fin (2 ^ 64)) : List U64 := List.ofFn fun i => BitVec.ofFin (x i)

open Spec in
open scoped Classical in
/-- How many tuples of hashes, taken through a permutation, overload some slot. -/
theorem card_overload {g : Geom} {len s k N : Nat} (hg : g.WF len s k) (hs : s ≤ 18) (φ : U64 → U64) (hφ : Function.Injective φ) :
    (univ.filter fun x : Fin N → Fin (2 ^ 64) => ¬ ∀ t, cnt g ((wordList x).map φ) t < 64).card ≤
      len * (N.choose 64 * slotHits k (2 ^ s) ^ 64 * (2 ^ 64) ^ (N - 64)) := by
  classical
  have hcnt : ∀ (x : Fin N → Fin (2 ^ 64)) t, cnt g ((wordList x).map φ) t =
      (univ.filter fun i => x i ∈ univ.filter fun h : Fin (2 ^ 64) => on g t (φ (BitVec.ofFin h)) = true).card := by
    intro x t
    unfold cnt wordList
    rw [List.countP_map, countP_ofFn]
    refine congrArg card (filter_congr fun i _ => ?_)
    rw [mem_filter]
    exact ⟨fun h => ⟨mem_univ _, h⟩, fun h => h.2⟩
  have hA : ∀ t, (univ.filter fun h : Fin (2 ^ 64) => on g t (φ (BitVec.ofFin h)) = true).card ≤ slotHits k (2 ^ s) := by
    intro t
    refine le_trans (card_le_card_of_injOn (fun h => (φ (BitVec.ofFin h)).toFin) ?_ ?_) (card_on hg hs t)
    · intro h hh
      have hh := (mem_filter.1 (mem_coe.1 hh)).2
      rw [mem_coe, mem_filter]
      exact ⟨mem_univ _, hh⟩
    · intro a _ b _ e
      have e1 : φ (BitVec.ofFin a) = φ (BitVec.ofFin b) := BitVec.eq_of_toFin_eq e
      have e2 := hφ e1
      exact congrArg BitVec.toFin e2
  have hsub : (univ.filter fun x : Fin N → Fin (2 ^ 64) => ¬ ∀ t, cnt g ((wordList x).map φ) t < 64) ⊆
      (range len).biUnion fun t => univ.filter fun x : Fin N → Fin (2 ^ 64) =>
        64 ≤ (univ.filter fun i => x i ∈ univ.filter fun h : Fin (2 ^ 64) => on g t (φ (BitVec.ofFin h)) = true).card := by
    intro x hx
    have hx := (mem_filter.1 hx).2
    push Not at hx
    obtain ⟨t, ht⟩ := hx
    rw [mem_biUnion]
    refine ⟨t, ?_, mem_filter.2 ⟨mem_univ _, by rw [← hcnt]; exact ht⟩⟩
    rw [mem_range]
    have h0 : 0 < cnt g ((wordList x).map φ) t := by omega
    unfold cnt at h0
    rw [List.countP_pos_iff] at h0
    obtain ⟨h, _, ho⟩ := h0
    have hl := slotsOk hg h
    unfold on at ho
    rw [decide_eq_true_eq] at ho
    rcases ho with e | e | e <;> rw [e]
    · exact hl.l0
    · exact hl.l1
    · exact hl.l2
  refine (card_le_card hsub).trans (card_biUnion_le.trans ?_)
  refine (sum_le_card_nsmul _ _ (N.choose 64 * slotHits k (2 ^ s) ^ 64 * (2 ^ 64) ^ (N - 64)) fun t _ => ?_).trans ?_
  · refine (card_tuples _).trans ?_
    rw [Fintype.card_fin]
    exact Nat.mul_le_mul_right _ (Nat.mul_le_mul_left _ (Nat.pow_le_pow_left (hA t) _))
  · rw [card_range, smul_eq_mul]

end Chalamet
