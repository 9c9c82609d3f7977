import Verif.Props.FailureRate
import Verif.Lemmas.Moments

/-! Counting raw random words: the rejected ones included (helper lemmas). -/

namespace Chalamet
open Finset Spec

/-- The tape of the words `x`, each of which can be any of the `2^32` words. -/
def Spec.rawTape {L : Nat} (x : Fin L → Fin (2 ^ 32)) : List U32 := List.ofFn fun i => BitVec.ofFin (x i)

open scoped Classical in
/-- Number of tapes of `L` words with a property. -/
noncomputable def cntRaw (L : Nat) (P : List U32 → Prop) : Nat := (univ.filter fun x : Fin L → Fin (2 ^ 32) => P (rawTape x)).card

theorem card_raw_le {L : Nat} {P : List U32 → Prop} {p : (Fin L → Fin (2 ^ 32)) → Prop} [DecidablePred p]
    (h : ∀ x, p x → P (rawTape x)) : (univ.filter p).card ≤ cntRaw L P := by
  classical
  unfold cntRaw
  refine card_le_card fun x hx => ?_
  rw [mem_filter] at hx ⊢
  exact ⟨hx.1, h _ hx.2⟩

theorem le_card_raw {L : Nat} {P : List U32 → Prop} {p : (Fin L → Fin (2 ^ 32)) → Prop} [DecidablePred p]
    (h : ∀ x, P (rawTape x) → p x) : cntRaw L P ≤ (univ.filter p).card := by
  classical
  unfold cntRaw
  refine card_le_card fun x hx => ?_
  rw [mem_filter] at hx ⊢
  exact ⟨hx.1, h _ hx.2⟩

theorem cntRaw_mono {L : Nat} {P Q : List U32 → Prop} (h : ∀ t, P t → Q t) : cntRaw L P ≤ cntRaw L Q := by
  classical
  unfold cntRaw
  refine card_le_card fun x hx => ?_
  rw [mem_filter] at hx ⊢
  exact ⟨hx.1, h _ hx.2⟩

theorem cntRaw_congr {L : Nat} {P Q : List U32 → Prop} (h : ∀ t, P t ↔ Q t) : cntRaw L P = cntRaw L Q :=
  le_antisymm (cntRaw_mono fun t => (h t).1) (cntRaw_mono fun t => (h t).2)

theorem card_filter_le_two {α : Type} [DecidableEq α] (s : Finset α) (p q r : α → Prop) [DecidablePred p] [DecidablePred q]
    [DecidablePred r] (h : ∀ a, r a → p a ∨ q a) : (s.filter r).card ≤ (s.filter p).card + (s.filter q).card := by
  refine le_trans (card_le_card fun x hx => ?_) (card_union_le _ _)
  rw [mem_filter] at hx
  rw [mem_union, mem_filter, mem_filter]
  exact (h x hx.2).imp (fun h => ⟨hx.1, h⟩) (fun h => ⟨hx.1, h⟩)

theorem cntRaw_or {L : Nat} {P Q R : List U32 → Prop} (h : ∀ t, R t → P t ∨ Q t) : cntRaw L R ≤ cntRaw L P + cntRaw L Q := by
  classical
  unfold cntRaw
  exact card_filter_le_two _ _ _ _ fun x hx => h _ hx

theorem cntRaw_le (L : Nat) (P : List U32 → Prop) : cntRaw L P ≤ (2 ^ 32) ^ L := by
  classical
  unfold cntRaw
  refine (card_le_univ _).trans (le_of_eq ?_)
  rw [Fintype.card_fun, Fintype.card_fin, Fintype.card_fin]

theorem cntRaw_true (L : Nat) : cntRaw L (fun _ => True) = (2 ^ 32) ^ L := by
  unfold cntRaw
  rw [filter_true, card_univ, Fintype.card_fun, Fintype.card_fin, Fintype.card_fin]

theorem cntRaw_false (L : Nat) {P : List U32 → Prop} (h : ∀ t, ¬ P t) : cntRaw L P = 0 := by
  classical
  unfold cntRaw
  rw [card_eq_zero, filter_eq_empty_iff]
  exact fun x _ => h _

open scoped Classical in
theorem card_cons {m : Nat} {α : Type} [Fintype α] (P : (Fin (m + 1) → α) → Prop) :
    (univ.filter P).card = ∑ a : α, (univ.filter fun t : Fin m → α => P (Fin.cons a t)).card := by
  have h : ∀ {β : Type} [Fintype β] (R : β → Prop), ((univ.filter R).card : ℝ) = ∑ b, if R b then (1 : ℝ) else 0 := by
    intro β _ R
    rw [card_filter]
    push_cast
    rfl
  have : ((univ.filter P).card : ℝ) = ((∑ a : α, (univ.filter fun t : Fin m → α => P (Fin.cons a t)).card : ℕ) : ℝ) := by
    rw [h, sum_cons]
    push_cast
    exact sum_congr rfl fun a _ => (h _).symm
  exact_mod_cast this

theorem sum_split {A R M : Nat} (h : M = A + R) (f : Nat → Nat) :
    ∑ v : Fin M, f v = ∑ v : Fin A, f v + ∑ r : Fin R, f (A + r) := by
  subst h
  rw [Fin.sum_univ_add]
  rfl

theorem cntRaw_succ (L : Nat) (P : List U32 → Prop) :
    cntRaw (L + 1) P = ∑ v : Fin 4294967293, cntRaw L (fun t => P (BitVec.ofNat 32 v :: t)) +
      ∑ r : Fin 3, cntRaw L (fun t => P (BitVec.ofNat 32 (4294967293 + r) :: t)) := by
  classical
  rw [← sum_split (M := 2 ^ 32) (by norm_num) (fun v => cntRaw L (fun t => P (BitVec.ofNat 32 v :: t)))]
  unfold cntRaw
  rw [card_cons]
  refine sum_congr rfl fun v _ => ?_
  congr 1
  refine filter_congr fun x _ => ?_
  have : rawTape (Fin.cons v x : Fin (L + 1) → Fin (2 ^ 32)) = BitVec.ofNat 32 v :: rawTape x := by
    unfold rawTape
    rw [List.ofFn_succ]
    simp only [Fin.cons_zero, Fin.cons_succ]
    congr 1
    apply BitVec.eq_of_toNat_eq
    rw [BitVec.toNat_ofNat, Nat.mod_eq_of_lt v.2]
    rfl
  rw [this]

/-- The first `n` samples succeed, and then `Q` holds of them and of the rest of the tape. -/
def Sampled (n : Nat) (Q : List U32 → List U32 → Prop) (tape : List U32) : Prop :=
  ∃ s rest, randomTernaryVector n tape = .ok (s, rest) ∧ Q s rest

theorem sampled_zero {Q : List U32 → List U32 → Prop} {t : List U32} : Sampled 0 Q t ↔ Q [] t := by
  unfold Sampled
  constructor
  · rintro ⟨s, rest, h, hQ⟩
    simp only [randomTernaryVector, Res.ok.injEq, Prod.mk.injEq] at h
    obtain ⟨rfl, rfl⟩ := h
    exact hQ
  · intro h
    exact ⟨[], t, rfl, h⟩

theorem sampled_nil {n : Nat} {Q : List U32 → List U32 → Prop} : ¬ Sampled (n + 1) Q [] := by
  rintro ⟨s, rest, h, _⟩
  simp [randomTernaryVector, randomTernary] at h

theorem sampled_reject {n : Nat} {Q : List U32 → List U32 → Prop} {t : List U32} {r : Nat} (hr : r < 3) :
    Sampled (n + 1) Q (BitVec.ofNat 32 (4294967293 + r) :: t) ↔ Sampled (n + 1) Q t := by
  have : randomTernaryVector (n + 1) (BitVec.ofNat 32 (4294967293 + r) :: t) = randomTernaryVector (n + 1) t := by
    rw [randomTernaryVector, randomTernaryVector, randomTernary, if_pos]
    rw [BitVec.toNat_ofNat, Nat.mod_eq_of_lt (by omega)]
    show 4294967292 < _
    omega
  unfold Sampled
  rw [this]

theorem sampled_accept {n : Nat} {Q : List U32 → List U32 → Prop} {t : List U32} {v : Nat} (hv : v < 4294967293) :
    Sampled (n + 1) Q (BitVec.ofNat 32 v :: t) ↔ Sampled n (fun s rest => Q (ternaryOf (BitVec.ofNat 32 v) :: s) rest) t := by
  have : randomTernaryVector (n + 1) (BitVec.ofNat 32 v :: t) =
      (randomTernaryVector n t >>= fun p => .ok (ternaryOf (BitVec.ofNat 32 v) :: p.1, p.2)) := by
    rw [randomTernaryVector, randomTernary, if_neg, Res.bind_ok]
    rw [BitVec.toNat_ofNat, Nat.mod_eq_of_lt (by omega)]
    show ¬ 4294967292 < _
    omega
  unfold Sampled
  rw [this]
  constructor
  · rintro ⟨s, rest, h, hQ⟩
    obtain ⟨⟨s', r'⟩, h1, h2⟩ := Res.bind_eq_ok.1 h
    simp only [Res.ok.injEq, Prod.mk.injEq] at h2
    obtain ⟨rfl, rfl⟩ := h2
    exact ⟨s', r', h1, hQ⟩
  · rintro ⟨s, rest, h, hQ⟩
    exact ⟨_, _, by rw [h, Res.bind_ok], hQ⟩

theorem cntRaw_sampled (L n : Nat) (Q : List U32 → List U32 → Prop) :
    cntRaw (L + 1) (Sampled (n + 1) Q) = 3 * cntRaw L (Sampled (n + 1) Q) +
      ∑ v : Fin 4294967293, cntRaw L (Sampled n fun s rest => Q (ternaryOf (BitVec.ofNat 32 v) :: s) rest) := by
  rw [cntRaw_succ, sum_congr rfl (fun v _ => cntRaw_congr fun t => sampled_accept (Q := Q) (n := n) (t := t) v.2),
    sum_congr rfl (fun r _ => cntRaw_congr fun t => sampled_reject (Q := Q) (n := n) (t := t) (Fin.is_lt (n := 3) r)),
    sum_const, card_univ, Fintype.card_fin, smul_eq_mul, add_comm]

theorem uniform_arith (M m a b c s t : Nat) (h1 : a * M ^ (m + 1) = b * c) (h2 : s * M ^ m = b * t) :
    (3 * a + s) * M ^ (m + 1) = b * (3 * c + M * t) := by
  have : (3 * a + s) * M ^ (m + 1) = 3 * (a * M ^ (m + 1)) + M * (s * M ^ m) := by ring
  rw [this, h1, h2]
  ring

open scoped Classical in
/-- Among the tapes on which `m` samples succeed, the accepted words are uniform. -/
theorem cntRaw_uniform (L m : Nat) (B : List U32 → Prop) :
    cntRaw L (Sampled m fun e _ => B e) * 4294967293 ^ m =
      (univ.filter fun t : Fin m → Fin 4294967293 => B (List.ofFn fun i => ternaryOf (BitVec.ofNat 32 (t i)))).card *
        cntRaw L (Sampled m fun _ _ => True) := by
  induction L generalizing m B with
  | zero =>
    cases m with
    | zero =>
      rw [cntRaw_congr fun t => sampled_zero, cntRaw_congr (P := Sampled 0 fun _ _ => True) fun t => sampled_zero, cntRaw_true]
      by_cases hB : B []
      · rw [cntRaw_congr (Q := fun _ => True) (fun t => by simp [hB]), cntRaw_true]
        simp [hB]
      · rw [cntRaw_false _ (fun t => hB)]
        simp [hB]
    | succ m =>
      have h0 : ∀ Q, cntRaw 0 (Sampled (m + 1) Q) = 0 := by
        intro Q
        classical
        unfold cntRaw
        rw [card_eq_zero, filter_eq_empty_iff]
        intro x _
        have : rawTape x = [] := by simp [rawTape]
        rw [this]
        exact sampled_nil
      rw [h0, h0, Nat.zero_mul, Nat.mul_zero]
  | succ L ih =>
    cases m with
    | zero =>
      rw [cntRaw_congr fun t => sampled_zero, cntRaw_congr (P := Sampled 0 fun _ _ => True) fun t => sampled_zero, cntRaw_true]
      by_cases hB : B []
      · rw [cntRaw_congr (Q := fun _ => True) (fun t => by simp [hB]), cntRaw_true]
        simp [hB]
      · rw [cntRaw_false _ (fun t => hB)]
        simp [hB]
    | succ m =>
      rw [cntRaw_sampled, cntRaw_sampled]
      have hc : (univ.filter fun t : Fin (m + 1) → Fin 4294967293 => B (List.ofFn fun i => ternaryOf (BitVec.ofNat 32 (t i)))).card =
          ∑ v : Fin 4294967293, (univ.filter fun t : Fin m → Fin 4294967293 =>
            B (ternaryOf (BitVec.ofNat 32 v) :: List.ofFn fun i => ternaryOf (BitVec.ofNat 32 (t i)))).card := by
        rw [card_cons]
        refine sum_congr rfl fun v _ => ?_
        congr 1
        refine filter_congr fun t _ => ?_
        rw [List.ofFn_succ]
        simp only [Fin.cons_zero, Fin.cons_succ]
      have h1 := ih (m + 1) B
      have h2 : (∑ v : Fin 4294967293, cntRaw L (Sampled m fun s rest => B (ternaryOf (BitVec.ofNat 32 v) :: s))) * 4294967293 ^ m =
          (univ.filter fun t : Fin (m + 1) → Fin 4294967293 => B (List.ofFn fun i => ternaryOf (BitVec.ofNat 32 (t i)))).card *
            cntRaw L (Sampled m fun _ _ => True) := by
        rw [hc, sum_mul, sum_mul]
        exact sum_congr rfl fun v _ => ih m fun s => B (ternaryOf (BitVec.ofNat 32 v) :: s)
      have h3 : ∑ v : Fin 4294967293, cntRaw L (Sampled m fun s rest => (fun _ _ => True : List U32 → List U32 → Prop) (ternaryOf (BitVec.ofNat 32 v) :: s) rest) =
          4294967293 * cntRaw L (Sampled m fun _ _ => True) := by
        rw [sum_const, card_univ, Fintype.card_fin, smul_eq_mul]
      rw [h3]
      exact uniform_arith _ _ _ _ _ _ _ h1 h2

/-- After any number of samples. -/
theorem cntRaw_after (ε : ℝ) (n : Nat) (Q : List U32 → List U32 → Prop) (L : Nat)
    (h : ∀ s L', (cntRaw L' (Q s) : ℝ) ≤ ε * (2 ^ 32) ^ L') :
    (cntRaw L (Sampled n Q) : ℝ) ≤ ε * (2 ^ 32) ^ L := by
  induction L generalizing n Q with
  | zero =>
    cases n with
    | zero =>
      rw [cntRaw_congr fun t => sampled_zero]
      exact h [] 0
    | succ n =>
      have h0 : cntRaw 0 (Sampled (n + 1) Q) = 0 := by
        classical
        unfold cntRaw
        rw [card_eq_zero, filter_eq_empty_iff]
        intro x _
        have : rawTape x = [] := by simp [rawTape]
        rw [this]
        exact sampled_nil
      rw [h0]
      have := h [] 0
      have h2 : (0 : ℝ) ≤ cntRaw 0 (Q []) := Nat.cast_nonneg _
      push_cast
      linarith
  | succ L ih =>
    cases n with
    | zero =>
      rw [cntRaw_congr fun t => sampled_zero]
      exact h [] _
    | succ n =>
      rw [cntRaw_sampled]
      have h1 := ih (n + 1) Q h
      have h2 : ∀ v : Fin 4294967293, (cntRaw L (Sampled n fun s rest => Q (ternaryOf (BitVec.ofNat 32 v) :: s) rest) : ℝ) ≤
          ε * (2 ^ 32) ^ L := fun v => ih n _ (fun s L' => h _ L')
      push_cast
      have h3 := sum_le_sum fun (v : Fin 4294967293) (_ : v ∈ univ) => h2 v
      rw [sum_const, card_univ, Fintype.card_fin, nsmul_eq_mul] at h3
      have e : ε * (2 ^ 32 : ℝ) ^ (L + 1) = 3 * (ε * (2 ^ 32) ^ L) + (4294967293 : ℕ) * (ε * (2 ^ 32) ^ L) := by
        rw [pow_succ]
        push_cast
        ring
      rw [e]
      linarith

theorem cntRaw_zero_sampled (n : Nat) (Q : List U32 → List U32 → Prop) : cntRaw 0 (Sampled (n + 1) Q) = 0 := by
  classical
  unfold cntRaw
  rw [card_eq_zero, filter_eq_empty_iff]
  intro x _
  have : rawTape x = [] := by simp [rawTape]
  rw [this]
  exact sampled_nil

theorem after_arith {x y z w a c : Nat} (h1 : x * a = c * z) (h2 : y * a = c * w) : (3 * x + y) * a = c * (3 * z + w) := by
  rw [add_mul, mul_assoc, h1, h2]
  ring

/-- Proportions survive preceding samples. -/
theorem cntRaw_after_eq (a c : Nat) (n : Nat) (Q R : List U32 → List U32 → Prop) (L : Nat)
    (h : ∀ s L', cntRaw L' (Q s) * a = c * cntRaw L' (R s)) :
    cntRaw L (Sampled n Q) * a = c * cntRaw L (Sampled n R) := by
  induction L generalizing n Q R with
  | zero =>
    cases n with
    | zero =>
      rw [cntRaw_congr fun t => sampled_zero, cntRaw_congr (P := Sampled 0 R) fun t => sampled_zero]
      exact h [] 0
    | succ n => rw [cntRaw_zero_sampled, cntRaw_zero_sampled, Nat.zero_mul, Nat.mul_zero]
  | succ L ih =>
    cases n with
    | zero =>
      rw [cntRaw_congr fun t => sampled_zero, cntRaw_congr (P := Sampled 0 R) fun t => sampled_zero]
      exact h [] _
    | succ n =>
      have h1 := ih (n + 1) Q R h
      have h2 := sum_congr rfl fun (v : Fin 4294967293) (_ : v ∈ univ) =>
        ih n (fun s => Q (ternaryOf (BitVec.ofNat 32 v) :: s)) (fun s => R (ternaryOf (BitVec.ofNat 32 v) :: s)) fun s L' => h _ L'
      rw [← sum_mul, ← mul_sum] at h2
      rw [cntRaw_sampled, cntRaw_sampled]
      exact after_arith h1 h2

/-- How many tapes do not suffice for `N` samples. -/
theorem cntRaw_short (L N r : Nat) (hL : L = N + r) :
    (cntRaw L (fun t => ¬ Sampled N (fun _ _ => True) t) : ℝ) ≤ (3 * L / 2 ^ 32) ^ (r + 1) * (2 ^ 32) ^ L := by
  induction L generalizing N r with
  | zero =>
    obtain ⟨rfl, rfl⟩ : N = 0 ∧ r = 0 := by omega
    rw [cntRaw_false _ (fun t h => h (sampled_zero.2 trivial))]
    simp
  | succ L ih =>
    cases N with
    | zero =>
      rw [cntRaw_false _ (fun t h => h (sampled_zero.2 trivial))]
      push_cast
      positivity
    | succ N =>
      rw [cntRaw_succ, sum_congr rfl (fun v _ => cntRaw_congr fun t => not_congr (sampled_accept (Q := fun _ _ => True) (n := N) (t := t) v.2)),
        sum_congr rfl (fun r _ => cntRaw_congr fun t => not_congr (sampled_reject (Q := fun _ _ => True) (n := N) (t := t) (Fin.is_lt (n := 3) r))),
        sum_const, card_univ, Fintype.card_fin, smul_eq_mul, sum_const, card_univ, Fintype.card_fin, smul_eq_mul]
      have h1 := ih N r (by omega)
      have h2 : (cntRaw L (fun t => ¬ Sampled (N + 1) (fun _ _ => True) t) : ℝ) ≤ (3 * L / 2 ^ 32) ^ r * (2 ^ 32) ^ L := by
        cases r with
        | zero =>
          rw [pow_zero, one_mul]
          exact_mod_cast cntRaw_le _ _
        | succ r => exact ih (N + 1) r (by omega)
      generalize (cntRaw L (fun t => ¬ Sampled (N + 1) (fun _ _ => True) t)) = a at h2 ⊢
      generalize (cntRaw L (fun t => ¬ Sampled N (fun _ _ => True) t)) = c at h1 ⊢
      have h3 : ((3 * L / 2 ^ 32 : ℝ)) ^ (r + 1) * 2 ^ 32 + 3 * (3 * L / 2 ^ 32) ^ r ≤ (3 * ((L + 1 : ℕ) : ℝ) / 2 ^ 32) ^ (r + 1) * 2 ^ 32 := by
        have e1 : (3 * L / 2 ^ 32 : ℝ) = (3 / 2 ^ 32) * L := by ring
        have e2 : (3 * ((L + 1 : ℕ) : ℝ) / 2 ^ 32 : ℝ) = (3 / 2 ^ 32) * (L + 1) := by push_cast; ring
        rw [e1, e2, mul_pow, mul_pow, mul_pow]
        have h4 : (L : ℝ) ^ (r + 1) + L ^ r ≤ (L + 1) ^ (r + 1) := by
          have : (L : ℝ) ^ r ≤ (L + 1) ^ r := by gcongr; linarith
          have h0 : (0 : ℝ) ≤ L := Nat.cast_nonneg _
          calc (L : ℝ) ^ (r + 1) + L ^ r = L ^ r * (L + 1) := by ring
            _ ≤ (L + 1) ^ r * (L + 1) := by gcongr
            _ = _ := by ring
        have h5 : (0 : ℝ) ≤ (3 / 2 ^ 32) ^ (r + 1) * 2 ^ 32 := by positivity
        have h6 := mul_le_mul_of_nonneg_left h4 h5
        have e3 : (3 : ℝ) * ((3 / 2 ^ 32) ^ r * L ^ r) = (3 / 2 ^ 32) ^ (r + 1) * 2 ^ 32 * L ^ r := by
          have : (3 : ℝ) = 3 / 2 ^ 32 * 2 ^ 32 := by norm_num
          conv_lhs => rw [this]
          generalize (3 : ℝ) / 2 ^ 32 = q
          ring
        rw [e3]
        linarith
      have h7 := mul_le_mul_of_nonneg_right h3 (show (0 : ℝ) ≤ (2 ^ 32) ^ L by positivity)
      have hc : (0 : ℝ) ≤ c := Nat.cast_nonneg _
      have e4 : (3 * ((L + 1 : ℕ) : ℝ) / 2 ^ 32) ^ (r + 1) * (2 ^ 32) ^ (L + 1) =
          (3 * ((L + 1 : ℕ) : ℝ) / 2 ^ 32) ^ (r + 1) * 2 ^ 32 * (2 ^ 32) ^ L := by ring
      rw [e4]
      refine le_trans ?_ h7
      have e5 : ((4294967293 * c + 3 * a : ℕ) : ℝ) = 4294967293 * c + 3 * a := by push_cast; ring
      rw [e5]
      generalize (3 * (L : ℝ) / 2 ^ 32) = y at *
      generalize ((2 : ℝ) ^ 32) ^ L = z at *
      have h8 : (4294967293 : ℝ) * c ≤ 2 ^ 32 * c := by nlinarith
      have : (y ^ (r + 1) * 2 ^ 32 + 3 * y ^ r) * z = 2 ^ 32 * (y ^ (r + 1) * z) + 3 * (y ^ r * z) := by ring
      rw [this]
      linarith

theorem sampled_append {n m : Nat} {t : List U32} :
    Sampled (n + m) (fun _ _ => True) t ↔ Sampled n (fun _ => Sampled m fun _ _ => True) t := by
  induction n generalizing t with
  | zero => rw [sampled_zero, Nat.zero_add]
  | succ n ih =>
    rw [Nat.succ_add]
    induction t with
    | nil => exact iff_of_false sampled_nil sampled_nil
    | cons v t iht =>
      by_cases hv : v.toNat < 4294967293
      · have e : v = BitVec.ofNat 32 v.toNat := by simp
        rw [e, sampled_accept hv, sampled_accept hv]
        exact ih
      · have hr : v.toNat - 4294967293 < 3 := by have := v.isLt; omega
        have e : v = BitVec.ofNat 32 (4294967293 + (v.toNat - 4294967293)) := by
          apply BitVec.eq_of_toNat_eq
          rw [BitVec.toNat_ofNat, Nat.mod_eq_of_lt (by omega)]
          omega
        rw [e, sampled_reject hr, sampled_reject hr]
        exact iht

end Chalamet
