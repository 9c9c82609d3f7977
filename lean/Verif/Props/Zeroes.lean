import Verif.Model.Zeroes
import Mathlib.Data.List.Basic

/-!
# The zero-fingerprint counter: C88
-/

namespace Chalamet

/-- Number of zero fingerprints in a list. -/
def zeroCount {n : Nat} (l : List (BitVec n)) : Nat := l.countP (· = 0#n)

/-- The window of the last `w` fingerprints up to and including position `i`. -/
def lastWindow {α : Type} (w i : Nat) (fp : List α) : List α := (fp.take (i + 1)).drop (i + 1 - w)

/-- What the tool prints when it prints at position `i`. -/
def printedAt {n : Nat} (w i : Nat) (fp : List (BitVec n)) : Nat :=
  zeroCount (lastWindow w i fp) + if fp[0]? = some 0#n then 1 else 0

theorem zeroCount_take_succ {n : Nat} {fp : List (BitVec n)} {k : Nat} (h : k < fp.length) :
    zeroCount (fp.take (k + 1)) = zeroCount (fp.take k) + if fp[k] = 0#n then 1 else 0 := by
  unfold zeroCount
  rw [List.take_succ_eq_append_getElem h, List.countP_append, List.countP_singleton]
  simp

theorem drop_take_succ {α : Type} {fp : List α} {k : Nat} (h : k < fp.length) (h1 : 1 ≤ k) :
    (fp.take (k + 1)).drop 1 = (fp.take k).drop 1 ++ [fp[k]] := by
  rw [List.take_succ_eq_append_getElem h, List.drop_append_of_le_length]
  rw [List.length_take]; omega

theorem zeroesLoop {n : Nat} (prof : Profile) (w : Nat) (hw : 0 < w) (fp : List (BitVec n)) (k : Nat)
    (hk : k ≤ fp.length) :
    ∃ st, foldRes (zeroesStep prof w fp) { zeroes := 0, printed := [] } (List.range k) = .ok st ∧
      st.zeroes + zeroCount ((fp.take (k - w)).drop 1) = zeroCount (fp.take k) ∧
      st.printed = (List.range k).filterMap fun i =>
        if w < i ∧ i % 333 = 0 then some (printedAt w i fp) else none := by
  induction k with
  | zero => exact ⟨_, rfl, by simp [zeroCount], rfl⟩
  | succ k ih =>
    obtain ⟨st, h1, h2, h3⟩ := ih (by omega)
    have hkl : k < fp.length := by omega
    rw [List.range_succ, foldRes_append, h1, Res.bind_ok]
    -- the counter after this iteration
    obtain ⟨z, hz, hinv⟩ : ∃ z, zeroesStep prof w fp st k = .ok ⟨z,
        if w < k ∧ k % 333 = 0 then st.printed ++ [z] else st.printed⟩ ∧
        z + zeroCount ((fp.take (k + 1 - w)).drop 1) = zeroCount (fp.take (k + 1)) := by
      unfold zeroesStep
      rw [rd_ok hkl]
      simp only [Res.bind_ok]
      have hc := zeroCount_take_succ hkl
      by_cases hwk : w < k
      · have hkw : k - w < fp.length := by omega
        have hd : (fp.take (k + 1 - w)).drop 1 = (fp.take (k - w)).drop 1 ++ [fp[k - w]] := by
          rw [show k + 1 - w = (k - w) + 1 by omega]
          exact drop_take_succ hkw (by omega)
        have hd' : zeroCount ((fp.take (k + 1 - w)).drop 1) =
            zeroCount ((fp.take (k - w)).drop 1) + if fp[k - w] = 0#n then 1 else 0 := by
          rw [hd]
          unfold zeroCount
          rw [List.countP_append, List.countP_singleton]
          simp
        have hle : zeroCount ((fp.take (k + 1 - w)).drop 1) ≤ zeroCount (fp.take (k + 1)) := by
          apply List.Sublist.countP_le
          exact (List.drop_sublist _ _).trans (List.take_sublist_take_left (by omega))
        simp only [hwk, if_true, rd_ok hkw, Res.bind_ok, true_and]
        by_cases hold : fp[k - w] = 0#n
        · simp only [hold, if_true] at hd' ⊢
          have hpos : 0 < (if fp[k] = 0#n then st.zeroes + 1 else st.zeroes) := by
            split <;> rename_i ht <;> simp only [ht, if_true, if_false] at hc <;> omega
          obtain ⟨z, hz⟩ := Nat.exists_eq_succ_of_ne_zero (Nat.pos_iff_ne_zero.1 hpos)
          refine ⟨z, by rw [hz], ?_⟩
          split at hz <;> rename_i ht <;> simp only [ht, if_true, if_false] at hc <;> omega
        · simp only [hold, if_false] at hd' ⊢
          refine ⟨_, rfl, ?_⟩
          split <;> rename_i ht <;> simp only [ht, if_true, if_false] at hc <;> omega
      · have he : (fp.take (k + 1 - w)).drop 1 = (fp.take (k - w)).drop 1 := by
          have : ∀ j ≤ 1, (fp.take j).drop 1 = [] := by
            intro j hj
            rw [List.drop_eq_nil_iff, List.length_take]
            omega
          rw [this _ (by omega), this _ (by omega)]
        simp only [hwk, if_false, false_and]
        refine ⟨_, rfl, ?_⟩
        rw [he]
        split <;> rename_i ht <;> simp only [ht, if_true, if_false] at hc <;> omega
    refine ⟨_, by rw [foldRes, hz]; rfl, hinv, ?_⟩
    rw [List.filterMap_append, ← h3]
    by_cases hp : w < k ∧ k % 333 = 0
    · simp only [hp, and_self, if_true, List.filterMap_cons, List.filterMap_nil]
      congr 2
      -- the value printed
      unfold printedAt lastWindow
      have hsplit : fp.take (k + 1) = fp.take (k + 1 - w) ++ (fp.take (k + 1)).drop (k + 1 - w) := by
        have := (List.take_append_drop (k + 1 - w) (fp.take (k + 1))).symm
        rwa [List.take_take, Nat.min_eq_left (by omega)] at this
      have h0 : 0 < fp.length := by omega
      have hhead : fp.take (k + 1 - w) = fp[0] :: (fp.take (k + 1 - w)).drop 1 := by
        have hl : 0 < (fp.take (k + 1 - w)).length := by rw [List.length_take]; omega
        have := List.getElem_cons_drop hl
        rw [List.drop_zero, List.getElem_take] at this
        exact this.symm
      have e1 : zeroCount (fp.take (k + 1)) =
          zeroCount (fp.take (k + 1 - w)) + zeroCount ((fp.take (k + 1)).drop (k + 1 - w)) := by
        conv_lhs => rw [hsplit]
        unfold zeroCount
        rw [List.countP_append]
      have e2 : zeroCount (fp.take (k + 1 - w)) =
          zeroCount ((fp.take (k + 1 - w)).drop 1) + if fp[0] = 0#n then 1 else 0 := by
        conv_lhs => rw [hhead]
        unfold zeroCount
        rw [List.countP_cons]
        simp
      rw [List.getElem?_eq_getElem h0]
      simp only [Option.some.injEq]
      omega
    · simp [hp]

/-- **C88.** On any array of fingerprints and for any window size `w` (the tool uses 2000) the loop neither panics nor
wraps, in any build, and prints, for every multiple of 333 above the window size in increasing order, the number of
zero fingerprints among the last `w` ones, plus one if the very first fingerprint of the array is zero:
fingerprint 0 is counted forever. -/
theorem C88_printed (n : Nat) (prof : Profile) (w : Nat) (hw : 0 < w) (fp : List (BitVec n)) (h : 0 < fp.length) :
    printZeroes prof w fp = .ok ((List.range fp.length).filterMap fun i =>
      if w < i ∧ i % 333 = 0 then
        some ((((fp.drop (i + 1 - w)).take w).countP (· = 0#n)) + if fp[0] = 0#n then 1 else 0)
      else none) := by
  obtain ⟨st, h1, _, h3⟩ := zeroesLoop prof w hw fp fp.length (Nat.le_refl _)
  unfold printZeroes
  rw [h1, Res.bind_ok, h3]
  congr 1
  apply List.filterMap_congr
  intro i hi
  rw [List.mem_range] at hi
  by_cases hwi : w < i ∧ i % 333 = 0
  · rw [if_pos hwi, if_pos hwi]
    unfold printedAt lastWindow zeroCount
    rw [List.getElem?_eq_getElem h, List.drop_take, show i + 1 - (i + 1 - w) = w by omega]
    simp only [Option.some.injEq]
  · rw [if_neg hwi, if_neg hwi]

/-- Non-vacuity of C88: with a window of 3, 334 zero fingerprints give the count 4, and one non-zero fingerprint in
front gives 3. -/
example : printZeroes .debug 3 (List.replicate 334 (0#8)) = .ok [4] ∧
    printZeroes .debug 3 (1#8 :: List.replicate 333 (0#8)) = .ok [3] := by
  decide +kernel

end Chalamet
