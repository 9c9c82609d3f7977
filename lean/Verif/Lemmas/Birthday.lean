import Verif.Lemmas.Overload
import Mathlib.Analysis.SpecialFunctions.Exp

/-! How many tuples of hashes give every hash its own triple of slots (helper lemmas). -/

namespace Chalamet
open Finset

/-- The three numbers of a hash that determine its slots. -/
def sig3 (M Lc s h : Nat) : Nat × Nat × Nat := (h * Lc / M, h / 2 ^ 18 % 2 ^ s, h % 2 ^ s)

theorem slots_of_sig {g : Geom} {len s k : Nat} (hg : g.WF len s k) (hs : s ≤ 18) {h h' : U64}
    (e : sig3 (2 ^ 64) (k * 2 ^ s) s h.toNat = sig3 (2 ^ 64) (k * 2 ^ s) s h'.toNat) (j : Nat) (hj : j < 3) :
    slotN g h j = slotN g h' j := by
  have hx : ∀ {a b c : Nat}, a = b ^^^ c → c = b ^^^ a := by
    rintro a b c rfl
    rw [← Nat.xor_assoc, Nat.xor_self, Nat.zero_xor]
  unfold sig3 at e
  have e0 := congrArg Prod.fst e
  have e1 := congrArg (fun z => z.2.1) e
  have e2 := congrArg (fun z => z.2.2) e
  simp only at e0 e1 e2
  obtain rfl | rfl | rfl : j = 0 ∨ j = 1 ∨ j = 2 := by omega
  · rw [← (slot_eq hg hs h _).1 rfl, ← (slot_eq hg hs h' _).1 rfl, e0]
  · rw [hx ((slot_eq hg hs h _).2.1 rfl).2, hx ((slot_eq hg hs h' _).2.1 rfl).2, e0, e1]
  · have a := ((slot_eq hg hs h _).2.2 rfl).2
    have b := ((slot_eq hg hs h' _).2.2 rfl).2
    rw [pow_zero, Nat.div_one] at a b
    rw [hx a, hx b, e0, e2]

theorem sig_of_slots {g : Geom} {len s k : Nat} (hg : g.WF len s k) (hs : s ≤ 18) {h h' : U64}
    (e : ∀ j < 3, slotN g h j = slotN g h' j) :
    sig3 (2 ^ 64) (k * 2 ^ s) s h.toNat = sig3 (2 ^ 64) (k * 2 ^ s) s h'.toNat := by
  have e0 := (slot_eq hg hs h _).1 rfl
  have e0' := (slot_eq hg hs h' _).1 rfl
  have e1 := ((slot_eq hg hs h _).2.1 rfl).2
  have e1' := ((slot_eq hg hs h' _).2.1 rfl).2
  have e2 := ((slot_eq hg hs h _).2.2 rfl).2
  have e2' := ((slot_eq hg hs h' _).2.2 rfl).2
  rw [← e 0 (by omega)] at e0'
  rw [← e 1 (by omega)] at e1'
  rw [← e 2 (by omega)] at e2'
  rw [pow_zero, Nat.div_one] at e2 e2'
  unfold sig3
  rw [e1, e1', e2, e2', e0, e0']

/-- The least number of hashes with given `sig3`. -/
def sigMin (M Lc s : Nat) : Nat := M / Lc / 2 ^ (18 + s) * 2 ^ (18 - s)

theorem interval_mem {M Lc v a : Nat} (hL : 0 < Lc) (h : a < M / Lc) :
    ((v * M + Lc - 1) / Lc + a) * Lc / M = v := by
  have hM : 0 < M := by
    rcases Nat.eq_zero_or_pos M with rfl | h'
    · simp at h
    · exact h'
  have h1 : v * M ≤ (v * M + Lc - 1) / Lc * Lc ∧ (v * M + Lc - 1) / Lc * Lc < v * M + Lc := by
    have h2 := Nat.div_add_mod (v * M + Lc - 1) Lc
    have h3 := Nat.mod_lt (v * M + Lc - 1) hL
    rw [Nat.mul_comm Lc] at h2
    generalize (v * M + Lc - 1) / Lc * Lc = w at *
    generalize v * M = u at *
    omega
  have h2 : (a + 1) * Lc ≤ M := by
    calc (a + 1) * Lc ≤ M / Lc * Lc := Nat.mul_le_mul_right _ h
      _ ≤ M := Nat.div_mul_le_self _ _
  generalize (v * M + Lc - 1) / Lc = c at *
  apply Nat.div_eq_of_lt_le
  · rw [Nat.add_mul]; omega
  · rw [Nat.add_mul] at h2 ⊢
    rw [Nat.add_mul]
    omega

theorem sig_card {M Lc s v x y : Nat} (hL : 0 < Lc) (hs : s ≤ 18) (hv : v < Lc) (hx : x < 2 ^ s) (hy : y < 2 ^ s) :
    sigMin M Lc s ≤ ((range M).filter fun h => sig3 M Lc s h = (v, x, y)).card := by
  unfold sigMin
  set c := (v * M + Lc - 1) / Lc with hc
  set Q := 2 ^ (18 + s) with hQ
  have hQpos : 0 < Q := Nat.two_pow_pos _
  set P := M / Lc / Q with hP
  -- offset of the residue `r` in the interval starting at `c`
  let off : Nat → Nat := fun r => (r + Q - c % Q) % Q
  let res : Nat → Nat := fun z => x * 2 ^ 18 + z * 2 ^ s + y
  have h18 : (2 : Nat) ^ 18 = 2 ^ (18 - s) * 2 ^ s := by rw [← Nat.pow_add]; congr 1; omega
  have hQe : Q = 2 ^ s * 2 ^ 18 := by rw [hQ, Nat.add_comm, Nat.pow_add]
  have hlow : ∀ z < 2 ^ (18 - s), z * 2 ^ s + y < 2 ^ 18 := by
    intro z hz
    have : (z + 1) * 2 ^ s ≤ 2 ^ (18 - s) * 2 ^ s := Nat.mul_le_mul_right _ hz
    rw [Nat.add_mul] at this
    omega
  have hres : ∀ z < 2 ^ (18 - s), res z < Q := by
    intro z hz
    have := hlow z hz
    have h2 : (x + 1) * 2 ^ 18 ≤ 2 ^ s * 2 ^ 18 := Nat.mul_le_mul_right _ hx
    rw [Nat.add_mul] at h2
    simp only [res]
    omega
  have hmod : ∀ r < Q, ∀ j, (c + (off r + j * Q)) % Q = r := by
    intro r hr j
    rw [← Nat.add_assoc, Nat.add_mul_mod_self_right]
    simp only [off]
    rw [Nat.add_mod_mod]
    have h3 := Nat.div_add_mod c Q
    have h4 := Nat.mod_lt c hQpos
    have : c + (r + Q - c % Q) = r + (c / Q + 1) * Q := by
      rw [Nat.add_mul, Nat.mul_comm (c / Q)]
      omega
    rw [this, Nat.add_mul_mod_self_right, Nat.mod_eq_of_lt hr]
  have hoff : ∀ r, off r < Q := fun r => Nat.mod_lt _ hQpos
  have key := card_le_card_of_injOn (s := range P ×ˢ range (2 ^ (18 - s)))
    (t := (range M).filter fun h => sig3 M Lc s h = (v, x, y))
    (fun p => c + (off (res p.2) + p.1 * Q)) (by
      intro p hp
      have hp := mem_product.1 (mem_coe.1 hp)
      rw [mem_range, mem_range] at hp
      have hr := hres p.2 hp.2
      have ha : off (res p.2) + p.1 * Q < M / Lc := by
        have h1 : (p.1 + 1) * Q ≤ P * Q := Nat.mul_le_mul_right _ hp.1
        have h2 : P * Q ≤ M / Lc := Nat.div_mul_le_self _ _
        have := hoff (res p.2)
        rw [Nat.add_mul] at h1
        omega
      have hiv := interval_mem (v := v) hL ha
      have hm := hmod (res p.2) hr p.1
      simp only
      generalize off (res p.2) + p.1 * Q = a at *
      rw [mem_coe, mem_filter, mem_range]
      have hdM : c + a < M := by
        have hM : 0 < M := by
          rcases Nat.eq_zero_or_pos M with h0 | h'
          · rw [h0] at ha; simp at ha
          · exact h'
        by_contra hge
        push Not at hge
        have h1 : M * Lc ≤ (c + a) * Lc := Nat.mul_le_mul_right _ hge
        have h2 : Lc ≤ (c + a) * Lc / M := by
          rw [Nat.le_div_iff_mul_le hM, Nat.mul_comm]; exact h1
        rw [← hc] at hiv
        omega
      refine ⟨hdM, ?_⟩
      have hlt := hlow p.2 hp.2
      generalize hh : c + a = h at *
      have e1 : h / 2 ^ 18 % 2 ^ s = x := by
        have : h % (2 ^ 18 * 2 ^ s) / 2 ^ 18 = h / 2 ^ 18 % 2 ^ s := Nat.mod_mul_right_div_self _ _ _
        rw [← this, Nat.mul_comm (2 ^ 18), ← hQe, hm]
        simp only [res]
        rw [Nat.add_assoc, Nat.mul_comm, Nat.mul_add_div (by positivity), Nat.div_eq_of_lt hlt, Nat.add_zero]
      have e2 : h % 2 ^ s = y := by
        have hd : 2 ^ s ∣ Q := by rw [hQe]; exact Dvd.intro _ rfl
        rw [← Nat.mod_mod_of_dvd h hd, hm]
        simp only [res]
        rw [h18, ← Nat.mul_assoc, ← Nat.add_mul, Nat.mul_comm, Nat.mul_add_mod, Nat.mod_eq_of_lt hy]
      unfold sig3
      rw [hiv, e1, e2]) (by
      intro p hp q hq hpq
      have hp := mem_product.1 (mem_coe.1 hp)
      have hq := mem_product.1 (mem_coe.1 hq)
      rw [mem_range, mem_range] at hp hq
      simp only at hpq
      have m1 := hmod (res p.2) (hres p.2 hp.2) p.1
      have m2 := hmod (res q.2) (hres q.2 hq.2) q.1
      rw [hpq, m2] at m1
      have hz : p.2 = q.2 := by
        have : p.2 * 2 ^ s = q.2 * 2 ^ s := by simp only [res] at m1; omega
        exact Nat.eq_of_mul_eq_mul_right (Nat.two_pow_pos s) this
      have hj : p.1 = q.1 := by
        rw [hz] at hpq
        have : p.1 * Q = q.1 * Q := by omega
        exact Nat.eq_of_mul_eq_mul_right hQpos this
      exact Prod.ext hj hz)
  rw [card_product, card_range, card_range] at key
  exact key

/-- Tuples whose images under `σ` are pairwise different, when no fibre of `σ` has fewer than `c` elements. -/
theorem card_distinct {α β : Type} [Fintype α] [DecidableEq α] [DecidableEq β] (σ : α → β) (c : Nat)
    (hc : ∀ a, c ≤ (univ.filter fun b => σ b = σ a).card) (N : Nat) :
    (univ.filter fun x : Fin N → α => Function.Injective fun i => σ (x i)).card ≤
      ∏ i ∈ range N, (Fintype.card α - i * c) := by
  classical
  induction N with
  | zero => exact (card_le_univ _).trans (by simp)
  | succ N ih =>
    rw [prod_range_succ]
    refine le_trans ?_ (Nat.mul_le_mul_right _ ih)
    have key := card_le_mul_card_image_of_maps_to
      (s := univ.filter fun x : Fin (N + 1) → α => Function.Injective fun i => σ (x i))
      (t := univ.filter fun x : Fin N → α => Function.Injective fun i => σ (x i))
      (f := fun x i => x i.succ) (by
        intro x hx
        refine mem_filter.2 ⟨mem_univ _, ?_⟩
        have := (mem_filter.1 hx).2
        intro i j hij
        exact Fin.succ_injective _ (this hij)) (Fintype.card α - N * c) (by
        intro y hy
        have hy := (mem_filter.1 hy).2
        -- the heads that may precede `y`
        have h1 : (((univ.filter fun x : Fin (N + 1) → α => Function.Injective fun i => σ (x i)).filter
            fun x => (fun i : Fin N => x i.succ) = y)).card ≤ ((univ.biUnion fun i : Fin N => univ.filter fun b => σ b = σ (y i))ᶜ).card := by
          refine card_le_card_of_injOn (fun x => x 0) ?_ ?_
          · intro x hx
            have hx := mem_filter.1 (mem_coe.1 hx)
            have hinj := (mem_filter.1 hx.1).2
            rw [mem_coe, mem_compl, mem_biUnion]
            rintro ⟨i, _, hi⟩
            have hi := (mem_filter.1 hi).2
            have e : x i.succ = y i := congrFun hx.2 i
            rw [← e] at hi
            exact (Fin.succ_ne_zero i) (hinj hi).symm
          · intro x hx x' hx' he
            have hx := (mem_filter.1 (mem_coe.1 hx)).2
            have hx' := (mem_filter.1 (mem_coe.1 hx')).2
            funext i
            refine Fin.cases he (fun i => ?_) i
            exact (congrFun hx i).trans (congrFun hx' i).symm
        have h2 : N * c ≤ (univ.biUnion fun i : Fin N => univ.filter fun b => σ b = σ (y i)).card := by
          rw [card_biUnion]
          · calc N * c = ∑ _i : Fin N, c := by rw [sum_const, card_univ, Fintype.card_fin, smul_eq_mul]
              _ ≤ _ := sum_le_sum fun i _ => hc (y i)
          · intro i _ j _ hij
            rw [Function.onFun, disjoint_left]
            intro a ha hb
            have ha := (mem_filter.1 ha).2
            have hb := (mem_filter.1 hb).2
            exact hij (hy (ha.symm.trans hb))
        rw [card_compl] at h1
        omega)
    rw [Nat.mul_comm] at key
    exact key

/-- `prod (M - i c) ≤ M^N exp (- c N (N-1) / (2 M))`. -/
theorem prod_exp {M c : Nat} (hM : 0 < M) : ∀ N : Nat,
    ((∏ i ∈ range N, (M - i * c) : Nat) : ℝ) ≤ (M : ℝ) ^ N * Real.exp (-((N * (N - 1) : ℝ) / 2 * (c / M)))
  | 0 => by simp
  | N + 1 => by
    have ih := prod_exp (c := c) hM N
    rw [prod_range_succ, Nat.cast_mul]
    have hM' : (0 : ℝ) < M := by exact_mod_cast hM
    have h1 : ((M - N * c : Nat) : ℝ) ≤ M * Real.exp (-(N * (c / M))) := by
      have h2 : (M : ℝ) - N * c ≤ M * Real.exp (-(N * (c / M))) := by
        have := Real.add_one_le_exp (-((N : ℝ) * (c / M)))
        have h3 := mul_le_mul_of_nonneg_left this hM'.le
        have e : (M : ℝ) * (-((N : ℝ) * (c / M)) + 1) = M - N * c := by field_simp; ring
        linarith
      rcases Nat.le_total (N * c) M with h | h
      · rw [Nat.cast_sub h]
        push_cast
        exact h2
      · rw [Nat.sub_eq_zero_of_le h]
        simp only [Nat.cast_zero]
        positivity
    calc _ ≤ ((M : ℝ) ^ N * Real.exp (-((N * (N - 1) : ℝ) / 2 * (c / M)))) * (M * Real.exp (-(N * (c / M)))) :=
          mul_le_mul ih h1 (by positivity) (by positivity)
      _ = (M : ℝ) ^ (N + 1) * (Real.exp (-((N * (N - 1) : ℝ) / 2 * (c / M))) * Real.exp (-(N * (c / M)))) := by ring
      _ = _ := by
        rw [← Real.exp_add]
        push_cast
        congr 2
        ring

theorem card_range_fin {M : Nat} (P : Nat → Prop) [DecidablePred P] :
    ((range M).filter P).card = (univ.filter fun x : Fin M => P x.val).card := by
  refine card_bij' (fun h hh => ⟨h, mem_range.1 (mem_filter.1 hh).1⟩) (fun x _ => x.val) ?_ ?_ ?_ ?_
  · intro h hh
    exact mem_filter.2 ⟨mem_univ _, (mem_filter.1 hh).2⟩
  · intro x hx
    exact mem_filter.2 ⟨mem_range.2 x.isLt, (mem_filter.1 hx).2⟩
  · intro h hh; rfl
  · intro x hx; rfl

theorem sig3_mem {M Lc s h : Nat} (hL : 0 < Lc) (hh : h < M) :
    (sig3 M Lc s h).1 < Lc ∧ (sig3 M Lc s h).2.1 < 2 ^ s ∧ (sig3 M Lc s h).2.2 < 2 ^ s := by
  refine ⟨?_, Nat.mod_lt _ (Nat.two_pow_pos s), Nat.mod_lt _ (Nat.two_pow_pos s)⟩
  unfold sig3
  exact Nat.div_lt_of_lt_mul (Nat.mul_lt_mul_of_pos_right hh hL)

theorem sig_fibre {M Lc s : Nat} (hL : 0 < Lc) (hs : s ≤ 18) (a : Fin M) :
    sigMin M Lc s ≤ (univ.filter fun b : Fin M => sig3 M Lc s b.val = sig3 M Lc s a.val).card := by
  obtain ⟨h1, h2, h3⟩ := sig3_mem (s := s) hL a.isLt
  have := sig_card (M := M) hL hs h1 h2 h3
  rw [card_range_fin] at this
  exact this

/-- When the least fibres already fill the space, every fibre is least. -/
theorem sig_fibre_eq {M Lc s : Nat} (hL : 0 < Lc) (hs : s ≤ 18) (hfull : Lc * (2 ^ s * 2 ^ s) * sigMin M Lc s = M) (a : Fin M) :
    (univ.filter fun b : Fin M => sig3 M Lc s b.val = sig3 M Lc s a.val).card = sigMin M Lc s := by
  have hmaps : ∀ b ∈ (univ : Finset (Fin M)), sig3 M Lc s b.val ∈ range Lc ×ˢ (range (2 ^ s) ×ˢ range (2 ^ s)) := by
    intro b _
    obtain ⟨h1, h2, h3⟩ := sig3_mem (s := s) hL b.isLt
    exact mem_product.2 ⟨mem_range.2 h1, mem_product.2 ⟨mem_range.2 h2, mem_range.2 h3⟩⟩
  have hsum := card_eq_sum_card_fiberwise hmaps
  have hge : ∀ t ∈ range Lc ×ˢ (range (2 ^ s) ×ˢ range (2 ^ s)),
      sigMin M Lc s ≤ (univ.filter fun b : Fin M => sig3 M Lc s b.val = t).card := by
    rintro ⟨v, x, y⟩ ht
    rw [mem_product, mem_product, mem_range, mem_range, mem_range] at ht
    have := sig_card (M := M) hL hs ht.1 ht.2.1 ht.2.2
    rw [card_range_fin] at this
    exact this
  have heq : ∑ _t ∈ range Lc ×ˢ (range (2 ^ s) ×ˢ range (2 ^ s)), sigMin M Lc s =
      ∑ t ∈ range Lc ×ˢ (range (2 ^ s) ×ˢ range (2 ^ s)), (univ.filter fun b : Fin M => sig3 M Lc s b.val = t).card := by
    rw [← hsum, sum_const, card_product, card_product, card_range, card_range, smul_eq_mul, hfull, card_univ, Fintype.card_fin]
  exact ((sum_eq_sum_iff_of_le hge).1 heq _ (hmaps a (mem_univ _))).symm

/-- Pairs with equal images. -/
theorem card_pairs {M c : Nat} {β : Type} [DecidableEq β] (σ : Fin M → β) (hc : ∀ a, (univ.filter fun b => σ b = σ a).card = c) :
    (univ.filter fun x : Fin 2 → Fin M => σ (x 0) = σ (x 1)).card = M * c := by
  have h1 : (univ.filter fun x : Fin 2 → Fin M => σ (x 0) = σ (x 1)).card =
      ((univ : Finset (Fin M)).sigma fun a => univ.filter fun b => σ b = σ a).card := by
    refine card_bij' (fun x _ => ⟨x 1, x 0⟩) (fun p _ => ![p.2, p.1]) ?_ ?_ ?_ ?_
    · intro x hx
      exact mem_sigma.2 ⟨mem_univ _, mem_filter.2 ⟨mem_univ _, (mem_filter.1 hx).2⟩⟩
    · intro p hp
      exact mem_filter.2 ⟨mem_univ _, (mem_filter.1 (mem_sigma.1 hp).2).2⟩
    · intro x hx
      funext i
      exact Fin.cases rfl (fun j => Fin.cases rfl (fun k => k.elim0) j) i
    · intro p hp; rfl
  rw [h1, card_sigma, sum_congr rfl fun a _ => hc a, sum_const, card_univ, Fintype.card_fin, smul_eq_mul]

end Chalamet
