import Verif.Props.Hash
import Verif.Model.Bincode
import Mathlib.Data.Fintype.Card
import Mathlib.Data.Finset.Card

/-!
# C81: every word of a filter seed matters
-/

namespace Chalamet
open Finset

theorem natToLeBytes_length (n x : Nat) : (natToLeBytes n x).length = n := by
  induction n generalizing x with
  | zero => rfl
  | succ n ih => simp [natToLeBytes, ih]

theorem leFold (n x : Nat) :
    (natToLeBytes n x).foldr (fun b acc => b.toNat + 256 * acc) 0 = x % 256 ^ n := by
  induction n generalizing x with
  | zero => simp [natToLeBytes, Nat.mod_one]
  | succ n ih =>
    rw [natToLeBytes, List.foldr_cons, ih, BitVec.toNat_ofNat, Nat.pow_succ' (n := n), Nat.mod_mul (a := 256)]

/-- The hash state after the seed words `l`, started from `m`. -/
def mixFold (k : U64) (l : List U64) (m : U64) : U64 := l.foldl (fun mixed s => mix64 (mixed + mix k s)) m

theorem mixStep_inj (k s : U64) {a b : U64} (h : mix64 (a + mix k s) = mix64 (b + mix k s)) : a = b := by
  have h1 := mix64_inj h
  generalize mix k s = c at h1
  have h2 := congrArg (· - c) h1
  simpa using h2

theorem mixFold_inj (k : U64) (l : List U64) {a b : U64} (h : mixFold k l a = mixFold k l b) : a = b := by
  induction l generalizing a b with
  | nil => exact h
  | cons s l ih =>
    have e : ∀ m, mixFold k (s :: l) m = mixFold k l (mix64 (m + mix k s)) := fun m => List.foldl_cons ..
    rw [e, e] at h
    exact mixStep_inj k s (ih h)

theorem mixWord_eq (k : U64) (l₁ l₂ : List U64) (x : U64) :
    mixWord (l₁ ++ x :: l₂) k = mixFold k l₂ (mix64 (mixFold k l₁ 0#64 + mix64 (k + x))) := by
  unfold mixWord mixFold
  rw [List.foldl_append, List.foldl_cons]
  rfl

theorem mixWord_inj (k : U64) (l₁ l₂ : List U64) {x y : U64}
    (h : mixWord (l₁ ++ x :: l₂) k = mixWord (l₁ ++ y :: l₂) k) : x = y := by
  rw [mixWord_eq, mixWord_eq] at h
  have h1 := mix64_inj (mixFold_inj k l₂ h)
  generalize mixFold k l₁ 0#64 = c at h1
  have h2 : mix64 (k + x) = mix64 (k + y) := by
    have := congrArg (fun z => z - c) h1
    simpa [BitVec.add_comm c] using this
  have h3 := mix64_inj h2
  have := congrArg (fun z => z - k) h3
  simpa [BitVec.add_comm k] using this

theorem u64_natToLeBytes (x : Nat) : u64FromLeBytes (natToLeBytes 8 x) = BitVec.ofNat 64 x := by
  unfold u64FromLeBytes
  rw [leFold, show (256 : Nat) ^ 8 = 2 ^ 64 by norm_num]
  apply BitVec.eq_of_toNat_eq
  rw [BitVec.toNat_ofNat, BitVec.toNat_ofNat, Nat.mod_mod]

/-- The seed words when 8 consecutive bytes hold `x`. -/
theorem seedWords_split {p q : List U8} {i : Nat} (hp : p.length = 8 * i) (hq : q.length + 8 * i = 24) :
    ∃ l₁ l₂ : List U64, ∀ x : Nat, seedWords (p ++ natToLeBytes 8 x ++ q) = .ok (l₁ ++ BitVec.ofNat 64 x :: l₂) := by
  have hi : i ≤ 3 := by omega
  refine ⟨(List.range i).map fun j => u64FromLeBytes ((p.drop (8 * j)).take 8),
    (List.range (3 - i)).map fun j => u64FromLeBytes ((q.drop (8 * j)).take 8), fun x => ?_⟩
  generalize hw : natToLeBytes 8 x = w
  have hwl : w.length = 8 := by rw [← hw, natToLeBytes_length]
  unfold seedWords
  rw [if_neg (by simp only [List.length_append]; omega)]
  congr 1
  have hr : List.range 4 = List.range i ++ i :: (List.range (3 - i)).map (fun j => i + 1 + j) := by
    match i, hi with
    | 0, _ => rfl
    | 1, _ => rfl
    | 2, _ => rfl
    | 3, _ => rfl
  rw [hr, List.map_append, List.map_cons, List.map_map]
  congr 1
  · apply List.map_congr_left
    intro j hj
    have hj' := List.mem_range.1 hj
    congr 1
    rw [List.append_assoc, List.drop_append_of_le_length (by omega),
      List.take_append_of_le_length (by rw [List.length_drop]; omega)]
  · congr 1
    · rw [← u64_natToLeBytes, hw, List.append_assoc, List.drop_append, List.drop_eq_nil_of_le (by omega),
        show 8 * i - p.length = 0 by omega, List.nil_append, List.drop_zero,
        List.take_append_of_le_length (by omega), List.take_of_length_le (by omega)]
    · apply List.map_congr_left
      intro j hj
      simp only [Function.comp_apply]
      congr 2
      rw [List.drop_append, List.drop_eq_nil_of_le (by simp only [List.length_append]; omega), List.nil_append]
      congr 1
      simp only [List.length_append]
      omega

theorem card_four (v : Nat) :
    ((range (2 ^ 64)).filter fun n => 4 * n % 2 ^ 64 = 4 * v % 2 ^ 64).card = 4 := by
  have e : ((range (2 ^ 64)).filter fun n => 4 * n % 2 ^ 64 = 4 * v % 2 ^ 64) =
      (range 4).image fun j => v % 2 ^ 62 + j * 2 ^ 62 := by
    ext n
    simp only [mem_filter, mem_range, mem_image]
    constructor
    · rintro ⟨h1, h2⟩
      exact ⟨n / 2 ^ 62, by omega, by omega⟩
    · rintro ⟨j, hj, rfl⟩
      constructor <;> omega
  rw [e, card_image_of_injective]
  · rfl
  · intro a b h
    simp only at h
    omega

theorem card_inj {N : Nat} (φ : Fin N → Fin N) (h : Function.Injective φ) (P : Nat → Prop) [DecidablePred P] :
    (univ.filter fun x => P (φ x).val).card = ((range N).filter P).card := by
  have hs := (Finite.injective_iff_bijective.1 h).2
  apply card_bij (fun x _ => (φ x).val)
  · intro x hx
    simp only [mem_filter, mem_univ, true_and] at hx
    simp only [mem_filter, mem_range]
    exact ⟨(φ x).isLt, hx⟩
  · intro a _ b _ e
    exact h (Fin.ext e)
  · intro n hn
    simp only [mem_filter, mem_range] at hn
    obtain ⟨x, hx⟩ := hs ⟨n, hn.1⟩
    have e : (φ x).val = n := by rw [hx]
    exact ⟨x, by simp only [mem_filter, mem_univ, true_and, e]; exact hn.2, e⟩

theorem card_iff {N : Nat} (Q : Fin N → Prop) [DecidablePred Q] (φ : Fin N → Fin N) (h : Function.Injective φ)
    (P : Nat → Prop) [DecidablePred P] (hQ : ∀ x, Q x ↔ P (φ x).val) :
    (univ.filter Q).card = ((range N).filter P).card := by
  rw [filter_congr fun x _ => hQ x]
  exact card_inj φ h P

/-- **C81.** Take a key whose four words are equal and vary one of the four 8-byte words of a filter seed, the other 24
bytes being fixed. The hash of the key takes every multiple of 4, each for exactly 4 of the `2^64` values of the word:
every word of the seed changes the hash, and no value is favoured. -/
theorem C81_seed_words (k : U64) (i : Nat) (p q : List U8) (hp : p.length = 8 * i) (hq : q.length + 8 * i = 24)
    (v : U64) :
    (univ.filter fun x : Fin (2 ^ 64) =>
      mix256 [k, k, k, k] (p ++ natToLeBytes 8 x ++ q) = .ok (4#64 * v)).card = 4 := by
  obtain ⟨l₁, l₂, hs⟩ := seedWords_split hp hq
  have hm : ∀ x : Nat, mix256 [k, k, k, k] (p ++ natToLeBytes 8 x ++ q) =
      .ok (4#64 * mixWord (l₁ ++ BitVec.ofNat 64 x :: l₂) k) := by
    intro x
    unfold mix256
    rw [hs, Res.bind_ok]
    simp only [List.map_cons, List.map_nil, List.foldl_cons, List.foldl_nil]
    congr 1
    generalize mixWord (l₁ ++ BitVec.ofNat 64 x :: l₂) k = m
    apply BitVec.eq_of_toNat_eq
    rw [BitVec.toNat_mul, BitVec.toNat_add, BitVec.toNat_add, BitVec.toNat_add, BitVec.toNat_add]
    simp only [BitVec.toNat_ofNat]
    omega
  have hinj : Function.Injective fun x : Fin (2 ^ 64) =>
      (⟨(mixWord (l₁ ++ BitVec.ofNat 64 x :: l₂) k).toNat, BitVec.isLt _⟩ : Fin (2 ^ 64)) := by
    intro a b h
    have h' := mixWord_inj k l₁ l₂ (BitVec.eq_of_toNat_eq (Fin.mk.inj h))
    apply Fin.ext
    have h3 := congrArg BitVec.toNat h'
    rw [BitVec.toNat_ofNat, BitVec.toNat_ofNat, Nat.mod_eq_of_lt a.isLt, Nat.mod_eq_of_lt b.isLt] at h3
    exact h3
  have hfil : ∀ x : Fin (2 ^ 64), (mix256 [k, k, k, k] (p ++ natToLeBytes 8 x ++ q) = .ok (4#64 * v)) ↔
      4 * (mixWord (l₁ ++ BitVec.ofNat 64 x :: l₂) k).toNat % 2 ^ 64 = 4 * v.toNat % 2 ^ 64 := by
    intro x
    rw [hm, Res.ok.injEq]
    generalize mixWord (l₁ ++ BitVec.ofNat 64 x :: l₂) k = m
    rw [← BitVec.toNat_inj, BitVec.toNat_mul, BitVec.toNat_mul, BitVec.toNat_ofNat,
      Nat.mod_eq_of_lt (show 4 < 2 ^ 64 by norm_num)]
  have hc := card_four v.toNat
  have hb := card_iff _ _ hinj (fun n => 4 * n % 2 ^ 64 = 4 * v.toNat % 2 ^ 64) hfil
  rw [hc] at hb
  exact hb

/-- Non-vacuity of C81: the third word of a seed of 32 bytes. -/
example : (List.replicate 16 7#8).length = 8 * 2 ∧ (List.replicate 8 9#8).length + 8 * 2 = 24 ∧
    (mix256 [5#64, 5#64, 5#64, 5#64] (List.replicate 16 7#8 ++ natToLeBytes 8 1 ++ List.replicate 8 9#8)).isOk = true ∧
    mix256 [5#64, 5#64, 5#64, 5#64] (List.replicate 16 7#8 ++ natToLeBytes 8 1 ++ List.replicate 8 9#8) ≠
      mix256 [5#64, 5#64, 5#64, 5#64] (List.replicate 16 7#8 ++ natToLeBytes 8 2 ++ List.replicate 8 9#8) := by
  decide +kernel

end Chalamet
