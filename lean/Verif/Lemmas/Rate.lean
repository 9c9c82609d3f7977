import Mathlib.Data.Finset.Card
import Mathlib.Algebra.BigOperators.Ring.Finset
import Mathlib.Order.Interval.Finset.Nat
import Mathlib.Algebra.Order.BigOperators.Group.Finset
import Mathlib.Data.Nat.Bitwise
import Mathlib.Tactic.Ring
import Mathlib.Tactic.Linarith

/-!
# Counting by groups

Numbers `v = h * X + x` are tested; within a group (fixed `h`), as long as a monotone quantity `g v` stays the same,
exactly one `x` passes the test. Then the number of passing values is the number of groups, up to the growth of
`g`.
-/

namespace Chalamet
open Finset

theorem group_one {X h : Nat} (hX : 0 < X) {g : Nat → Nat} (hg : Monotone g) {pass : Nat → Prop}
    [DecidablePred pass]
    (hp : ∀ c, ∃ x0 < X, ∀ x < X, g (h * X + x) = c → (pass (h * X + x) ↔ x = x0)) :
    ((range X).filter fun x => pass (h * X + x)).card + g (h * X) ≤ 1 + g ((h + 1) * X) ∧
    1 + g (h * X) ≤ ((range X).filter fun x => pass (h * X + x)).card + g ((h + 1) * X) := by
  have e : (h + 1) * X = h * X + X := by ring
  constructor
  · have hle : ((range X).filter fun x => pass (h * X + x)).card ≤
        (Icc (g (h * X)) (g ((h + 1) * X))).card := by
      apply card_le_card_of_injOn (fun x => g (h * X + x))
      · intro x hx
        simp only [coe_filter, mem_range, Set.mem_ofPred_eq] at hx
        simp only [coe_Icc, Set.mem_Icc]
        exact ⟨hg (by omega), hg (by omega)⟩
      · intro x hx y hy hxy
        simp only [coe_filter, mem_range, Set.mem_ofPred_eq] at hx hy
        simp only at hxy
        obtain ⟨x0, _, h0⟩ := hp (g (h * X + x))
        rw [(h0 x hx.1 rfl).1 hx.2, (h0 y hy.1 hxy.symm).1 hy.2]
    rw [Nat.card_Icc] at hle
    have := hg (show h * X ≤ (h + 1) * X by omega)
    omega
  · by_cases hc : g (h * X) = g ((h + 1) * X)
    · obtain ⟨x0, hx0, h0⟩ := hp (g (h * X))
      have hpos : 0 < ((range X).filter fun x => pass (h * X + x)).card := by
        rw [card_pos]
        refine ⟨x0, ?_⟩
        rw [mem_filter, mem_range]
        refine ⟨hx0, (h0 x0 hx0 ?_).2 rfl⟩
        have h1 := hg (show h * X ≤ h * X + x0 by omega)
        have h2 := hg (show h * X + x0 ≤ (h + 1) * X by omega)
        omega
      omega
    · have := hg (show h * X ≤ (h + 1) * X by omega)
      omega

theorem group_count {X : Nat} (hX : 0 < X) {g : Nat → Nat} (hg : Monotone g) {pass : Nat → Prop}
    [DecidablePred pass] (H : Nat)
    (hp : ∀ h < H, ∀ c, ∃ x0 < X, ∀ x < X, g (h * X + x) = c → (pass (h * X + x) ↔ x = x0)) :
    ((range (H * X)).filter pass).card + g 0 ≤ H + g (H * X) ∧
    H + g 0 ≤ ((range (H * X)).filter pass).card + g (H * X) := by
  induction H with
  | zero => simp
  | succ H ih =>
    obtain ⟨i1, i2⟩ := ih fun h hh => hp h (by omega)
    obtain ⟨j1, j2⟩ := group_one hX hg (hp H (by omega))
    have e : ((range ((H + 1) * X)).filter pass).card = ((range (H * X)).filter pass).card +
        ((range X).filter fun x => pass (H * X + x)).card := by
      rw [Nat.add_mul, Nat.one_mul, card_filter, card_filter, card_filter, sum_range_add]
    rw [e]
    omega

/-- Numbers below `A * B` counted by their remainders modulo `B`. -/
theorem card_filter_mul (A B : Nat) (P : Nat → Prop) [DecidablePred P] :
    ((range (A * B)).filter P).card = ∑ lo ∈ range B, ((range A).filter fun v => P (v * B + lo)).card := by
  simp only [card_filter]
  rw [sum_comm]
  induction A with
  | zero => simp
  | succ A ih => rw [Nat.add_mul, Nat.one_mul, sum_range_add, ih, sum_range_succ]

/-- Numbers below `A * B` counted by their quotients by `B`. -/
theorem card_filter_mul' (A B : Nat) (P : Nat → Prop) [DecidablePred P] :
    ((range (A * B)).filter P).card = ∑ v ∈ range A, ((range B).filter fun lo => P (v * B + lo)).card := by
  simp only [card_filter]
  induction A with
  | zero => simp
  | succ A ih => rw [Nat.add_mul, Nat.one_mul, sum_range_add, ih, sum_range_succ]

end Chalamet
