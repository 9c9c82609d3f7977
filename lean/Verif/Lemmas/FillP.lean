import Verif.Lemmas.Fill
import Verif.Lemmas.Kv
import Mathlib.Data.ZMod.Basic
import Mathlib.Data.Nat.Count
import Mathlib.Data.Int.CardIntervalMod
import Mathlib.Tactic.Ring
import Mathlib.Tactic.LinearCombination

/-! How the cells of a `BinaryFuseP32` depend on its initial contents: affine forms modulo `2^b` (helper lemmas). -/

namespace Chalamet
open Finset

/-! ## Programs `cell c := k - cell a - cell b` -/

/-- One assignment: target, two sources, constant. -/
structure AInstr (q : Nat) where
  c : Nat
  a : Nat
  b : Nat
  k : ZMod q

/-- Effect of one assignment. -/
def AInstr.exec {q : Nat} (f : Nat → ZMod q) (i : AInstr q) : Nat → ZMod q :=
  fun s => if s = i.c then i.k - f i.a - f i.b else f s

/-- All assignments in order. -/
def arun {q : Nat} (prog : List (AInstr q)) (f : Nat → ZMod q) : Nat → ZMod q :=
  prog.foldl AInstr.exec f

/-- Every cell after the run is an affine form in the initial cells, whose linear part does not depend on the constants. -/
theorem arun_form {q n : Nat} (prog : List (AInstr q)) (hp : ∀ i ∈ prog, i.a < n ∧ i.b < n)
    (C : Nat → Nat → ZMod q) :
    ∃ C' : Nat → Nat → ZMod q, ∀ prog' : List (AInstr q),
      prog'.map (fun i => (i.c, i.a, i.b)) = prog.map (fun i => (i.c, i.a, i.b)) →
      ∀ (F : (Nat → ZMod q) → Nat → ZMod q) (K : Nat → ZMod q),
      (∀ s < n, ∀ f, F f s = K s + ∑ i ∈ range n, C s i * f i) →
      ∀ s < n, ∃ k, ∀ f, arun prog' (F f) s = k + ∑ i ∈ range n, C' s i * f i := by
  induction prog generalizing C with
  | nil =>
    refine ⟨C, ?_⟩
    intro prog' he F K hF s hs
    obtain rfl : prog' = [] := by simpa using he
    exact ⟨K s, fun f => hF s hs f⟩
  | cons i prog ih =>
    obtain ⟨C', h⟩ := ih (fun j hj => hp j (by simp [hj]))
      (fun s k => if s = i.c then - C i.a k - C i.b k else C s k)
    refine ⟨C', ?_⟩
    intro prog' he F K hF s hs
    cases prog' with
    | nil => simp at he
    | cons i' prog' =>
      simp only [List.map_cons, List.cons.injEq, Prod.mk.injEq] at he
      obtain ⟨⟨e1, e2, e3⟩, he⟩ := he
      obtain ⟨ha, hb⟩ := hp i (by simp)
      refine h prog' he (fun f => i'.exec (F f))
        (fun s => if s = i.c then i'.k - K i.a - K i.b else K s) ?_ s hs
      intro s hs f
      unfold AInstr.exec
      rw [e1, e2, e3]
      split_ifs with e
      · rw [hF _ ha, hF _ hb]
        have : ∑ x ∈ range n, (- C i.a x - C i.b x) * f x =
            - ∑ x ∈ range n, C i.a x * f x - ∑ x ∈ range n, C i.b x * f x := by
          rw [← sum_neg_distrib, ← sum_sub_distrib]
          apply sum_congr rfl
          intro x _
          ring
        rw [this]
        ring
      · exact hF s hs f

theorem arun_form_id {q n : Nat} (prog : List (AInstr q)) (hp : ∀ i ∈ prog, i.a < n ∧ i.b < n) :
    ∃ C : Nat → Nat → ZMod q, ∀ prog' : List (AInstr q),
      prog'.map (fun i => (i.c, i.a, i.b)) = prog.map (fun i => (i.c, i.a, i.b)) →
      ∀ s < n, ∃ k, ∀ f, arun prog' f s = k + ∑ i ∈ range n, C s i * f i := by
  obtain ⟨C, h⟩ := arun_form prog hp (fun s i => if i = s then 1 else 0)
  refine ⟨C, fun prog' he s hs => h prog' he (fun f => f) (fun _ => 0) ?_ s hs⟩
  intro s hs f
  simp [hs]

/-- A cell no instruction mentions keeps its content, and does not influence the other cells. -/
theorem arun_untouched {q : Nat} (prog : List (AInstr q)) (s : Nat)
    (hp : ∀ i ∈ prog, i.a ≠ s ∧ i.b ≠ s ∧ i.c ≠ s) (f f' : Nat → ZMod q)
    (h : ∀ k, k ≠ s → f k = f' k) :
    arun prog f s = f s ∧ ∀ k, k ≠ s → arun prog f k = arun prog f' k := by
  induction prog generalizing f f' with
  | nil => exact ⟨rfl, h⟩
  | cons i prog ih =>
    obtain ⟨ha, hb, hc⟩ := hp i (by simp)
    obtain ⟨h1, h2⟩ := ih (fun j hj => hp j (by simp [hj])) (i.exec f) (i.exec f') (by
      intro k hk
      unfold AInstr.exec
      split
      · rw [h _ ha, h _ hb]
      · exact h k hk)
    refine ⟨?_, h2⟩
    show arun prog (i.exec f) s = f s
    rw [h1]
    simp [AInstr.exec, Ne.symm hc]

/-! ## Counting solutions of an affine equation modulo `2^b` -/

theorem card_mod_eq {M N r : Nat} (hN : N = r * M) (hr : 0 < r) (v : Nat) (hv : v < r) :
    (univ.filter fun y : Fin N => y.val % r = v).card * r = N := by
  have e : (univ.filter fun y : Fin N => y.val % r = v).card = ((range N).filter fun y => y % r = v).card := by
    rw [← Finset.card_image_of_injective (univ.filter fun y : Fin N => y.val % r = v) Fin.val_injective]
    congr 1
    ext y
    simp only [mem_image, mem_filter, mem_univ, true_and, mem_range]
    constructor
    · rintro ⟨z, h, rfl⟩
      exact ⟨z.isLt, h⟩
    · rintro ⟨h1, h2⟩
      exact ⟨⟨y, h1⟩, h2, rfl⟩
  have h2 : ((range N).filter fun y => y % r = v).card = N / r := by
    have := Nat.count_modEq_card N hr v
    rw [Nat.count_eq_card_filter_range] at this
    simp only [Nat.ModEq, Nat.mod_eq_of_lt hv] at this
    rw [this, if_neg (by rw [hN, Nat.mul_mod_right]; omega), Nat.add_zero]
  rw [e, h2, hN, Nat.mul_div_cancel_left _ hr, Nat.mul_comm]

theorem natCast_mod_pow {b N : Nat} (hb : b ≤ 32) : ((N % 2 ^ 32 : ℕ) : ZMod (2 ^ b)) = (N : ZMod (2 ^ b)) := by
  rw [ZMod.natCast_eq_natCast_iff]
  exact (Nat.mod_modEq N (2 ^ 32)).of_dvd (Nat.pow_dvd_pow 2 hb)

theorem affine_iff {b t : Nat} (K : ZMod (2 ^ b)) (v y : Nat) :
    K + 2 ^ t * (y : ZMod (2 ^ b)) = (v : ZMod (2 ^ b)) ↔ ((2 : ℤ) ^ b ∣ (v : ℤ) - K.val - 2 ^ t * y) := by
  have : NeZero (2 ^ b) := ⟨by positivity⟩
  have e : K + 2 ^ t * (y : ZMod (2 ^ b)) = (((K.val : ℤ) + 2 ^ t * y : ℤ) : ZMod (2 ^ b)) := by
    push_cast
    rw [ZMod.natCast_zmod_val]
  have e2 : (v : ZMod (2 ^ b)) = ((v : ℤ) : ZMod (2 ^ b)) := by push_cast; rfl
  rw [e, e2, ZMod.intCast_eq_intCast_iff, Int.modEq_iff_dvd]
  push_cast
  rw [sub_sub]

/-- The values of an affine form modulo `2^b`, over all contents of `n` words: equidistributed on one residue class modulo a
power of two that depends on the linear part only. -/
theorem card_affine {b n : Nat} (hb : b ≤ 32) (c : Nat → ZMod (2 ^ b)) :
    ∃ t ≤ b, (∀ i < n, 2 ^ t ∣ (c i).val) ∧ ∀ (K : ZMod (2 ^ b)) (v : Nat), v < 2 ^ b →
      (univ.filter fun x : Fin n → Fin (2 ^ 32) =>
        K + ∑ i : Fin n, c i.val * ((x i).val : ZMod (2 ^ b)) = (v : ZMod (2 ^ b))).card * 2 ^ (b - t) =
        if v % 2 ^ t = K.val % 2 ^ t then (2 ^ 32) ^ n else 0 := by
  have hne : NeZero (2 ^ b) := ⟨by positivity⟩
  obtain ⟨t, htb, htP, htmax⟩ : ∃ t ≤ b, (∀ i < n, 2 ^ t ∣ (c i).val) ∧
      (t < b → ∃ i, i < n ∧ ¬ 2 ^ (t + 1) ∣ (c i).val) := by
    refine ⟨Nat.findGreatest (fun t => ∀ i < n, 2 ^ t ∣ (c i).val) b, Nat.findGreatest_le _, ?_, ?_⟩
    · exact Nat.findGreatest_spec (P := fun t => ∀ i < n, 2 ^ t ∣ (c i).val) (Nat.zero_le b) (by simp)
    · intro hlt
      have := Nat.findGreatest_is_greatest (P := fun t => ∀ i < n, 2 ^ t ∣ (c i).val)
        (Nat.lt_succ_self (Nat.findGreatest (fun t => ∀ i < n, 2 ^ t ∣ (c i).val) b)) hlt
      push Not at this
      exact this
  refine ⟨t, htb, htP, ?_⟩
  intro K v hv
  rcases Nat.lt_or_ge t b with hlt | hge
  · obtain ⟨i, hi, hodd⟩ := htmax hlt
    let d : Nat → Nat := fun j => (c j).val / 2 ^ t
    have hc : ∀ j < n, c j = 2 ^ t * (d j : ZMod (2 ^ b)) := by
      intro j hj
      have h1 : (c j).val = 2 ^ t * d j := (Nat.mul_div_cancel' (htP j hj)).symm
      have h2 := congrArg (Nat.cast (R := ZMod (2 ^ b))) h1
      rw [ZMod.natCast_zmod_val] at h2
      rw [h2]
      push_cast
      rfl
    have hu : Nat.Coprime (d i) (2 ^ 32) := by
      apply Nat.Coprime.pow_right
      rw [Nat.coprime_comm, Nat.Prime.coprime_iff_not_dvd Nat.prime_two]
      intro hdiv
      apply hodd
      rw [← Nat.mul_div_cancel' (htP i hi), Nat.pow_succ]
      exact Nat.mul_dvd_mul_left _ hdiv
    let ψ : (Fin n → Fin (2 ^ 32)) → Fin (2 ^ 32) := fun x => ⟨(∑ j : Fin n, d j.val * (x j).val) % 2 ^ 32, Nat.mod_lt _ (by positivity)⟩
    have hsum : ∀ x : Fin n → Fin (2 ^ 32),
        ∑ j : Fin n, c j.val * ((x j).val : ZMod (2 ^ b)) = 2 ^ t * ((ψ x).val : ZMod (2 ^ b)) := by
      intro x
      show _ = 2 ^ t * (((∑ j : Fin n, d j.val * (x j).val) % 2 ^ 32 : ℕ) : ZMod (2 ^ b))
      rw [natCast_mod_pow hb, Nat.cast_sum, mul_sum]
      apply sum_congr rfl
      intro j _
      rw [hc j.val j.isLt]
      push_cast
      ring
    have hsolve := card_solve (fun y : Fin (2 ^ 32) => K + 2 ^ t * (y.val : ZMod (2 ^ b)) = (v : ZMod (2 ^ b)))
      (⟨i, hi⟩ : Fin n) ψ (by
        intro x y hxy he
        have he' : (∑ j : Fin n, d j.val * (x j).val) ≡ (∑ j : Fin n, d j.val * (y j).val) [MOD 2 ^ 32] :=
          congrArg Fin.val he
        rw [← Finset.add_sum_erase univ _ (mem_univ (⟨i, hi⟩ : Fin n)),
          ← Finset.add_sum_erase univ (fun j : Fin n => d j.val * (y j).val) (mem_univ (⟨i, hi⟩ : Fin n))] at he'
        have hrest : ∑ j ∈ univ.erase (⟨i, hi⟩ : Fin n), d j.val * (x j).val =
            ∑ j ∈ univ.erase (⟨i, hi⟩ : Fin n), d j.val * (y j).val := by
          apply sum_congr rfl
          intro j hj
          rw [hxy j (ne_of_mem_erase hj)]
        rw [hrest] at he'
        have h2 := Nat.ModEq.add_right_cancel' _ he'
        have h3 := Nat.ModEq.cancel_left_of_coprime (c := d i) (by rw [Nat.gcd_comm]; exact hu) h2
        apply Fin.ext
        have := h3
        unfold Nat.ModEq at this
        rwa [Nat.mod_eq_of_lt (x ⟨i, hi⟩).isLt, Nat.mod_eq_of_lt (y ⟨i, hi⟩).isLt] at this)
    have hset : (univ.filter fun x : Fin n → Fin (2 ^ 32) =>
        K + ∑ i : Fin n, c i.val * ((x i).val : ZMod (2 ^ b)) = (v : ZMod (2 ^ b))) =
        (univ.filter fun x : Fin n → Fin (2 ^ 32) => K + 2 ^ t * ((ψ x).val : ZMod (2 ^ b)) = (v : ZMod (2 ^ b))) := by
      ext x
      simp only [mem_filter, mem_univ, true_and, hsum]
    rw [hset]
    have hbt : (2 : ℤ) ^ b = 2 ^ t * 2 ^ (b - t) := by rw [← pow_add]; congr 1; omega
    by_cases hres : v % 2 ^ t = K.val % 2 ^ t
    · rw [if_pos hres]
      obtain ⟨e, he⟩ : ∃ e : ℤ, (v : ℤ) - K.val = 2 ^ t * e := by
        have : (2 ^ t : ℤ) ∣ (v : ℤ) - K.val := by
          have h := (Nat.modEq_iff_dvd (n := 2 ^ t) (a := K.val) (b := v)).1 hres.symm
          simpa using h
        exact this
      have hpos : (0 : ℤ) < 2 ^ (b - t) := by positivity
      have hP : ∀ y : Nat, (K + 2 ^ t * (y : ZMod (2 ^ b)) = (v : ZMod (2 ^ b))) ↔
          y % 2 ^ (b - t) = (e % 2 ^ (b - t)).toNat := by
        intro y
        rw [affine_iff, he, hbt, ← mul_sub, mul_dvd_mul_iff_left (by positivity), ← Int.modEq_iff_dvd]
        have h0 : 0 ≤ e % 2 ^ (b - t) := Int.emod_nonneg _ (by positivity)
        unfold Int.ModEq
        constructor
        · intro h
          rw [← h]
          have : ((y : ℤ) % 2 ^ (b - t)) = ((y % 2 ^ (b - t) : ℕ) : ℤ) := by push_cast; rfl
          rw [this, Int.toNat_natCast]
        · intro h
          have h' : ((y % 2 ^ (b - t) : ℕ) : ℤ) = ((e % 2 ^ (b - t)).toNat : ℤ) := congrArg _ h
          rw [Int.toNat_of_nonneg h0] at h'
          rw [← h']
          push_cast
          rfl
      have hcard := card_mod_eq (M := 2 ^ (32 - (b - t))) (N := 2 ^ 32) (r := 2 ^ (b - t))
        (by rw [← pow_add]; congr 1; omega) (by positivity) ((e % 2 ^ (b - t)).toNat)
        (by
          have := Int.emod_lt_of_pos e hpos
          zify
          rw [Int.toNat_of_nonneg (Int.emod_nonneg _ (by positivity))]
          exact this)
      have hset2 : (univ.filter fun y : Fin (2 ^ 32) => K + 2 ^ t * (y.val : ZMod (2 ^ b)) = (v : ZMod (2 ^ b))) =
          (univ.filter fun y : Fin (2 ^ 32) => y.val % 2 ^ (b - t) = (e % 2 ^ (b - t)).toNat) := by
        ext y
        simp only [mem_filter, mem_univ, true_and, hP]
      rw [hset2] at hsolve
      have h32 : 0 < 2 ^ 32 := by positivity
      apply Nat.eq_of_mul_eq_mul_right h32
      rw [Nat.mul_right_comm, hsolve, Nat.mul_right_comm, hcard, Nat.mul_comm]
    · rw [if_neg hres]
      have hempty : (univ.filter fun y : Fin (2 ^ 32) => K + 2 ^ t * (y.val : ZMod (2 ^ b)) = (v : ZMod (2 ^ b))) = ∅ := by
        rw [Finset.filter_eq_empty_iff]
        intro y _ h
        rw [affine_iff, hbt] at h
        have h1 : (2 : ℤ) ^ t ∣ (v : ℤ) - K.val := by
          have h2 := Dvd.dvd.trans (Dvd.intro _ rfl) h
          have h3 := (Int.dvd_iff_dvd_of_dvd_sub (a := 2 ^ t) (b := (v : ℤ) - K.val) (c := 2 ^ t * y.val) h2)
          exact h3.2 (Dvd.intro _ rfl)
        apply hres
        have := (Nat.modEq_iff_dvd (n := 2 ^ t) (a := K.val) (b := v)).2 (by simpa using h1)
        exact this.symm
      rw [hempty] at hsolve
      simp only [card_empty, Nat.zero_mul] at hsolve
      have : 0 < 2 ^ 32 := by positivity
      rcases Nat.mul_eq_zero.1 hsolve with h | h
      · rw [h, Nat.zero_mul]
      · omega
  · have htb' : t = b := by omega
    subst htb'
    have hzero : ∀ j < n, c j = 0 := by
      intro j hj
      rw [← ZMod.val_eq_zero]
      exact Nat.eq_zero_of_dvd_of_lt (htP j hj) (ZMod.val_lt _)
    have hs : ∀ x : Fin n → Fin (2 ^ 32), ∑ j : Fin n, c j.val * ((x j).val : ZMod (2 ^ t)) = 0 := by
      intro x
      apply sum_eq_zero
      intro j _
      rw [hzero j.val j.isLt, zero_mul]
    simp only [hs, add_zero, Nat.sub_self, pow_zero, Nat.mul_one]
    have hiff : K = (v : ZMod (2 ^ t)) ↔ v % 2 ^ t = K.val % 2 ^ t := by
      rw [Nat.mod_eq_of_lt hv, Nat.mod_eq_of_lt (ZMod.val_lt K)]
      constructor
      · intro h; rw [h, ZMod.val_natCast_of_lt hv]
      · intro h; rw [h, ZMod.natCast_zmod_val]
    by_cases h : K = (v : ZMod (2 ^ t))
    · rw [if_pos (hiff.1 h)]
      simp [h]
    · rw [if_neg (fun h' => h (hiff.2 h'))]
      simp [h]

/-! ## The assignment loop is such a program -/

theorem cast_mod {b : Nat} {p x : U32} (hp : p.toNat = 2 ^ b) : ((x % p).toNat : ZMod (2 ^ b)) = (x.toNat : ZMod (2 ^ b)) := by
  rw [BitVec.toNat_umod, hp, ZMod.natCast_mod]

theorem cast_add {b : Nat} (hb : b ≤ 32) (x y : U32) :
    ((x + y).toNat : ZMod (2 ^ b)) = (x.toNat : ZMod (2 ^ b)) + (y.toNat : ZMod (2 ^ b)) := by
  rw [BitVec.toNat_add, natCast_mod_pow hb, Nat.cast_add]

theorem cast_sub {b : Nat} (hb : b ≤ 32) (x y : U32) :
    ((x - y).toNat : ZMod (2 ^ b)) = (x.toNat : ZMod (2 ^ b)) - (y.toNat : ZMod (2 ^ b)) := by
  rw [eq_sub_iff_add_eq, ← cast_add hb, BitVec.sub_add_cancel]

/-- The positions an entry of the stack works on: target and two sources. -/
def triP (g : Geom) (e : U64 × Nat) : Nat × Nat × Nat :=
  let l := [slotN g e.1 0, slotN g e.1 1, slotN g e.1 2, slotN g e.1 0, slotN g e.1 1, 0]
  (l.getD e.2 0, l.getD (e.2 + 1) 0, l.getD (e.2 + 2) 0)

theorem hmGet_mem {hashes : List U64} {data : List U32} {h : U64} {d : U32} (e : hmGet hashes data h = some d) : h ∈ hashes := by
  unfold hmGet at e
  have h1 : (h, d) ∈ (hashes.zip data).reverse := by
    generalize (hashes.zip data).reverse = l at e
    induction l with
    | nil => simp at e
    | cons a l ih =>
      obtain ⟨k, v⟩ := a
      rw [List.lookup_cons] at e
      split at e
      · rename_i hk
        cases e
        rw [beq_iff_eq] at hk
        subst hk
        simp
      · exact List.mem_cons_of_mem _ (ih e)
  exact (List.of_mem_zip (List.mem_reverse.1 h1)).1

/-- If one step of the loop succeeds for some contents, it succeeds for all and is an assignment. -/
theorem assignStepP_affine {g : Geom} {hashes : List U64} {data : List U32} {label ptxtMod : U64} {b n : Nat} (hb : b ≤ 31)
    (hp : ptxtMod.toNat = 2 ^ b) {B1 B1' : List U32} {e : U64 × Nat} (hl : B1.length = n)
    (h : assignStepP g hashes data label ptxtMod B1 e = .ok B1') :
    B1'.length = n ∧ e.1 ∈ hashes ∧ ∃ i : AInstr (2 ^ b), (i.c, i.a, i.b) = triP g e ∧ i.a < n ∧ i.b < n ∧ i.c < n ∧
      ∀ B : List U32, B.length = n → ∃ B', assignStepP g hashes data label ptxtMod B e = .ok B' ∧ B'.length = n ∧
        (fun s => ((B'.getD s 0#32).toNat : ZMod (2 ^ b))) = i.exec fun s => ((B.getD s 0#32).toNat : ZMod (2 ^ b)) := by
  obtain ⟨hash, found⟩ := e
  unfold assignStepP at h ⊢
  simp only at h ⊢
  cases hd : hmGet hashes data hash with
  | none => rw [hd] at h; cases h
  | some d =>
    rw [hd] at h
    simp only at h ⊢
    have hlt : ptxtMod.toNat < 2 ^ 32 := by rw [hp]; exact Nat.pow_lt_pow_right (by omega) (by omega)
    have hpn : (ptxtMod.setWidth 32 : U32).toNat = 2 ^ b := by rw [setWidth_toNat_lt hlt, hp]
    split at h
    · cases h
    rename_i hne
    obtain ⟨a, ha, h⟩ := Res.bind_eq_ok.1 h
    obtain ⟨b', hb', h⟩ := Res.bind_eq_ok.1 h
    obtain ⟨c, hc, h⟩ := Res.bind_eq_ok.1 h
    obtain ⟨fa, hfa, h⟩ := Res.bind_eq_ok.1 h
    obtain ⟨fb, hfb, h⟩ := Res.bind_eq_ok.1 h
    obtain ⟨la, _⟩ := rd_eq_ok' hfa
    obtain ⟨lb, _⟩ := rd_eq_ok' hfb
    have lc : c < B1.length := by
      by_contra hcon
      unfold wr at h
      rw [if_neg hcon] at h
      cases h
    rw [wr_ok lc] at h
    simp only [Res.ok.injEq] at h
    subst h
    refine ⟨by simpa using hl, hmGet_mem hd,
      ⟨c, a, b', (d.toNat : ZMod (2 ^ b)) - (((mix hash label % ptxtMod).setWidth 32 : U32).toNat : ZMod (2 ^ b))⟩,
      ?_, (show a < n by omega), (show b' < n by omega), (show c < n by omega), ?_⟩
    · obtain ⟨q1, q2⟩ := rd_eq_ok' ha
      obtain ⟨q3, q4⟩ := rd_eq_ok' hb'
      obtain ⟨q5, q6⟩ := rd_eq_ok' hc
      unfold triP
      simp only [slotN]
      rw [getD_lt q1, getD_lt q3, getD_lt q5, q2, q4, q6]
    · intro B hB
      rw [if_neg hne, ha, Res.bind_ok, hb', Res.bind_ok, hc, Res.bind_ok, rd_ok (show a < B.length by omega), Res.bind_ok,
        rd_ok (show b' < B.length by omega), Res.bind_ok, wr_ok (show c < B.length by omega)]
      refine ⟨_, rfl, by simpa using hB, ?_⟩
      funext s
      unfold AInstr.exec
      simp only
      rw [getD_set_fun (by omega)]
      split_ifs with e
      · rw [cast_mod hpn, cast_sub (by omega), cast_mod hpn, cast_sub (by omega), cast_sub (by omega), cast_mod hpn,
          getD_lt (show a < B.length by omega), getD_lt (show b' < B.length by omega)]
        ring
      · rfl

/-- The whole loop. -/
theorem assignP_affine {g : Geom} {hashes : List U64} {data : List U32} {label ptxtMod : U64} {b n : Nat} (hb : b ≤ 31)
    (hp : ptxtMod.toNat = 2 ^ b) {B1 B1' : List U32} {stk : List (U64 × Nat)} (hl : B1.length = n)
    (h : foldRes (assignStepP g hashes data label ptxtMod) B1 stk = .ok B1') :
    (∀ e ∈ stk, e.1 ∈ hashes) ∧
    ∃ prog : List (AInstr (2 ^ b)), prog.map (fun i => (i.c, i.a, i.b)) = stk.map (triP g) ∧
      (∀ i ∈ prog, i.a < n ∧ i.b < n) ∧
      ∀ B : List U32, B.length = n → ∃ B', foldRes (assignStepP g hashes data label ptxtMod) B stk = .ok B' ∧ B'.length = n ∧
        (fun s => ((B'.getD s 0#32).toNat : ZMod (2 ^ b))) = arun prog fun s => ((B.getD s 0#32).toNat : ZMod (2 ^ b)) := by
  induction stk generalizing B1 with
  | nil => exact ⟨by simp, [], rfl, by simp, fun B hB => ⟨B, rfl, hB, rfl⟩⟩
  | cons e stk ih =>
    rw [foldRes_cons] at h
    obtain ⟨B2, h1, h2⟩ := Res.bind_eq_ok.1 h
    obtain ⟨l2, hm, i, hi, ia, ib, ic, hstep⟩ := assignStepP_affine hb hp hl h1
    obtain ⟨hms, prog, ht, hab, hrun⟩ := ih l2 h2
    refine ⟨by simpa using ⟨hm, fun x hx h => by simpa using hms _ h⟩, i :: prog, by simp [hi, ht], ?_, ?_⟩
    · intro j hj
      rcases List.mem_cons.1 hj with rfl | hj
      · exact ⟨ia, ib⟩
      · exact hab j hj
    · intro B hB
      obtain ⟨B3, e1, e2, e3⟩ := hstep B hB
      obtain ⟨B4, e4, e5, e6⟩ := hrun B3 e2
      exact ⟨B4, by rw [foldRes_cons, e1, Res.bind_ok, e4], e5, by rw [e6, e3]; rfl⟩

/-- The cells of a filter are affine forms modulo `2^b` in its initial contents; the linear parts are the same for all data,
labels and contents, and a slot that the assignments do not mention is independent of all others. -/
theorem bfp_affine {prof : Profile} {segExp cap0 maxIter b : Nat} (hb : b ≤ 31) {fp1 : Nat → U32} {seed : List U8}
    {keys : List Key} {data1 : List U32} {label1 p1 : U64} {f1 : BinaryFuseP32} {lay : Layout}
    (hlay : bfLayout keys.length segExp cap0 = .ok lay) (hp1 : p1.toNat = 2 ^ b)
    (h1 : bfusePFromImpl prof segExp cap0 maxIter fp1 seed keys data1 label1 p1 = .ok f1) :
    ∃ (hashes : List U64) (stk : List (U64 × Nat)) (C : Nat → Nat → ZMod (2 ^ b)),
      mapRes (fun k => mix256 k seed) keys = .ok hashes ∧
      bfpLoop prof lay keys.length hashes maxIter (BState.init keys.length lay.arrayLen) = .ok stk ∧
      (∀ e ∈ stk, e.1 ∈ hashes) ∧
      (∀ s < lay.arrayLen, (∀ e ∈ stk, (triP lay.geom e).1 ≠ s ∧ (triP lay.geom e).2.1 ≠ s ∧ (triP lay.geom e).2.2 ≠ s) →
        C s s = 1 ∧ ∀ s' < lay.arrayLen, s' ≠ s → C s' s = 0) ∧
      ∀ (data : List U32) (label p : U64) (fp : Nat → U32) (f : BinaryFuseP32), p.toNat = 2 ^ b →
        bfusePFromImpl prof segExp cap0 maxIter fp seed keys data label p = .ok f →
        ∃ K : Nat → ZMod (2 ^ b), ∀ fp0 : Nat → U32, ∃ f0 : BinaryFuseP32,
          bfusePFromImpl prof segExp cap0 maxIter fp0 seed keys data label p = .ok f0 ∧ f0.seed = seed ∧
          f0.geom = lay.geom ∧ f0.ptxtMod = p ∧ f0.fingerprints.length = lay.arrayLen ∧
          ∀ s < lay.arrayLen, ((f0.fingerprints.getD s 0#32).toNat : ZMod (2 ^ b)) =
            K s + ∑ i ∈ range lay.arrayLen, C s i * ((fp0 i).toNat : ZMod (2 ^ b)) := by
  obtain ⟨lay', hashes, stk, B1, g1, g2, g3, g4, g5, _⟩ := bfp_ok h1
  rw [hlay] at g1
  cases g1
  obtain ⟨hm, prog1, ht1, hab1, hrun1⟩ := assignP_affine (n := lay.arrayLen) hb hp1 (by simp) g5
  obtain ⟨C, hC⟩ := arun_form_id prog1 hab1
  refine ⟨hashes, stk, C, g2, g4, hm, ?_, ?_⟩
  · intro s hs hfree
    have hun : ∀ i ∈ prog1, i.a ≠ s ∧ i.b ≠ s ∧ i.c ≠ s := by
      intro i hi
      have : (i.c, i.a, i.b) ∈ stk.map (triP lay.geom) := by
        rw [← ht1]; exact List.mem_map.2 ⟨i, hi, rfl⟩
      obtain ⟨e, he, hee⟩ := List.mem_map.1 this
      have := hfree e he
      rw [hee] at this
      exact ⟨this.2.1, this.2.2, this.1⟩
    obtain ⟨u1, u2⟩ := arun_untouched prog1 s hun (fun i => if i = s then 1 else 0) (fun _ => 0) (by
      intro k hk; simp [hk])
    obtain ⟨u3, _⟩ := arun_untouched prog1 s hun (fun _ => 0) (fun _ => 0) (fun _ _ => rfl)
    have hval : ∀ s' < lay.arrayLen, arun prog1 (fun i => if i = s then 1 else 0) s' - arun prog1 (fun _ => 0) s' = C s' s := by
      intro s' hs'
      obtain ⟨k, hk⟩ := hC prog1 rfl s' hs'
      rw [hk, hk]
      simp [hs]
    refine ⟨?_, ?_⟩
    · rw [← hval s hs, u1, u3]; simp
    · intro s' hs' hne
      rw [← hval s' hs', u2 s' hne]; simp
  · intro data label p fp f hp hf
    obtain ⟨lay', hashes', stk', B, k1, k2, k3, k4, k5, _⟩ := bfp_ok hf
    rw [hlay] at k1
    cases k1
    rw [g2] at k2
    cases k2
    rw [g4] at k4
    cases k4
    obtain ⟨_, prog, ht, hab, hrun⟩ := assignP_affine (n := lay.arrayLen) hb hp (by simp) k5
    have hC' := hC prog (by rw [ht, ht1])
    choose! K hK using hC'
    refine ⟨K, ?_⟩
    intro fp0
    obtain ⟨B0, e1, e2, e3⟩ := hrun ((List.range lay.arrayLen).map fp0) (by simp)
    refine ⟨{ seed := seed, geom := lay.geom, fingerprints := B0, ptxtMod := p }, ?_, rfl, rfl, rfl, e2, ?_⟩
    · rw [bfusePFromImpl_eq] at hf ⊢
      split at hf
      · cases hf
      · rename_i hdbg
        rw [if_neg hdbg, hlay, Res.bind_ok, g2, Res.bind_ok]
        rw [hlay, Res.bind_ok, g2, Res.bind_ok] at hf
        split at hf
        · cases hf
        · rename_i hdl
          rw [if_neg hdl, g4, Res.bind_ok, e1]
          rfl
    · intro s hs
      have := congrFun e3 s
      simp only at this ⊢
      rw [this, hK s hs]
      congr 1
      apply sum_congr rfl
      intro i hi
      have hi' := mem_range.1 hi
      rw [getD_lt (by simpa using hi')]
      simp

end Chalamet
