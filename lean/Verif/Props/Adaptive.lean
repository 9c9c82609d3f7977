import Verif.Props.Privacy
import Mathlib.Tactic.Ring

/-!
# C102: privacy against a server that chooses what is asked next, and with one LWE sample at a time
-/

namespace Chalamet
open Spec Finset

/-! ## Specification -/

/-- What a server has seen after `Q` more queries, when it had seen `seen` before: each query is made by `send` from one random
draw, for the thing that `ask` chooses from everything seen so far. -/
def Spec.session {K Ω O : Type*} (send : K → Ω → O) (ask : List O → K) : (Q : Nat) → (Fin Q → Ω) → List O → List O
  | 0, _, seen => seen
  | Q + 1, w, seen => session send ask Q (Fin.tail w) (seen ++ [send (ask seen) (w 0)])

/-- How well `D`, which draws `r` itself, tells one LWE sample from one uniformly random vector. -/
noncomputable def Spec.lweAdvantage1 {R : Type*} [Fintype R] {n m : Nat} (A : Fin m → Fin n → U32)
    (D : R → List U32 → Prop) : ℚ :=
  |freq (fun p : R × (Fin (n + m) → Fin 4294967293) => D p.1 (lwe A p.2)) -
    freq (fun p : R × (Fin m → Fin 4294967296) => D p.1 (maskOf p.2))|

/-- `Q` vectors, of which the first `i` are uniformly random, the `i`-th is `x`, and the others are LWE samples. -/
def Spec.mixed {n m Q : Nat} (A : Fin m → Fin n → U32) (i : Fin Q)
    (r : (Fin Q → Fin (n + m) → Fin 4294967293) × (Fin Q → Fin m → Fin 4294967296)) (x : List U32) : Fin Q → List U32 :=
  fun j => if j < i then maskOf (r.2 j) else if j = i then x else lwe A (r.1 j)

/-! ## One sample at a time -/

theorem freq_fst {Ω Ω' : Type*} [Fintype Ω] [Fintype Ω'] [Nonempty Ω'] (P : Ω → Prop) :
    freq (fun p : Ω × Ω' => P p.1) = freq P := by
  classical
  rw [← freq_equiv (Equiv.prodComm Ω' Ω), freq_prod]
  show (∑ _w : Ω', freq P) / _ = _
  rw [sum_const, nsmul_eq_mul, card_univ]
  have : (Fintype.card Ω' : ℚ) ≠ 0 := by
    have := Fintype.card_pos (α := Ω')
    positivity
  field_simp

theorem freq_snd {Ω Ω' : Type*} [Fintype Ω] [Fintype Ω'] [Nonempty Ω] (P : Ω' → Prop) :
    freq (fun p : Ω × Ω' => P p.2) = freq P := by
  rw [← freq_equiv (Equiv.prodComm Ω' Ω)]
  exact freq_fst P

/-- The first `k` vectors random, the others LWE samples. -/
def hybrid {n m Q : Nat} (A : Fin m → Fin n → U32) (k : Nat)
    (r : (Fin Q → Fin (n + m) → Fin 4294967293) × (Fin Q → Fin m → Fin 4294967296)) : Fin Q → List U32 :=
  fun j => if j.val < k then maskOf (r.2 j) else lwe A (r.1 j)

/-- **C102 (one sample at a time).** Telling `Q` LWE samples (same matrix, fresh secrets) from `Q` random vectors is at most as
easy as the `Q` tests on a single sample put together, each of which draws the other `Q - 1` vectors itself. -/
theorem C102_one_sample {n m Q : Nat} (A : Fin m → Fin n → U32) (D : (Fin Q → List U32) → Prop) :
    lweAdvantage A D ≤ ∑ i : Fin Q, lweAdvantage1 A (fun r x => D (mixed A i r x)) := by
  classical
  obtain ⟨G, hG⟩ : ∃ G : Nat → ℚ, ∀ k, G k = freq fun r : (Fin Q → Fin (n + m) → Fin 4294967293) ×
      (Fin Q → Fin m → Fin 4294967296) => D (hybrid A k r) := ⟨_, fun _ => rfl⟩
  have h0 : G 0 = freq (fun T : Fin Q → Fin (n + m) → Fin 4294967293 => D fun i => lwe A (T i)) := by
    rw [hG]
    have e : ∀ r : (Fin Q → Fin (n + m) → Fin 4294967293) × (Fin Q → Fin m → Fin 4294967296),
        hybrid A 0 r = fun i => lwe A (r.1 i) := fun r => by funext j; simp [hybrid]
    simp only [e]
    exact freq_fst (Ω' := Fin Q → Fin m → Fin 4294967296) (fun T : Fin Q → Fin (n + m) → Fin 4294967293 => D fun i => lwe A (T i))
  have hQ : G Q = freq (fun u : Fin Q → Fin m → Fin 4294967296 => D fun i => maskOf (u i)) := by
    rw [hG]
    have e : ∀ r : (Fin Q → Fin (n + m) → Fin 4294967293) × (Fin Q → Fin m → Fin 4294967296),
        hybrid A Q r = fun i => maskOf (r.2 i) := fun r => by funext j; simp [hybrid]
    simp only [e]
    exact freq_snd (Ω := Fin Q → Fin (n + m) → Fin 4294967293) (fun u : Fin Q → Fin m → Fin 4294967296 => D fun i => maskOf (u i))
  have hstep : ∀ i : Fin Q, lweAdvantage1 A (fun r x => D (mixed A i r x)) = |G i.val - G (i.val + 1)| := by
    intro i
    unfold lweAdvantage1
    congr 2
    · set e : (((Fin Q → Fin (n + m) → Fin 4294967293) × (Fin Q → Fin m → Fin 4294967296)) × (Fin (n + m) → Fin 4294967293)) ≃
        (((Fin Q → Fin (n + m) → Fin 4294967293) × (Fin Q → Fin m → Fin 4294967296)) × (Fin (n + m) → Fin 4294967293)) :=
        { toFun := fun p => ((Function.update p.1.1 i p.2, p.1.2), p.1.1 i)
          invFun := fun p => ((Function.update p.1.1 i p.2, p.1.2), p.1.1 i)
          left_inv := fun p => by simp
          right_inv := fun p => by simp } with he
      rw [hG, ← freq_equiv e, ← freq_fst (Ω' := Fin (n + m) → Fin 4294967293)
        (fun r : (Fin Q → Fin (n + m) → Fin 4294967293) × (Fin Q → Fin m → Fin 4294967296) => D (hybrid A i.val r))]
      congr 1
      funext p
      refine congrArg D ?_
      funext j
      simp only [mixed, hybrid, he, Equiv.coe_fn_mk, Fin.lt_def]
      by_cases h1 : j.val < i.val
      · simp [h1]
      · by_cases h2 : j = i
        · subst h2; simp
        · simp [h1, h2]
    · set e : (((Fin Q → Fin (n + m) → Fin 4294967293) × (Fin Q → Fin m → Fin 4294967296)) × (Fin m → Fin 4294967296)) ≃
        (((Fin Q → Fin (n + m) → Fin 4294967293) × (Fin Q → Fin m → Fin 4294967296)) × (Fin m → Fin 4294967296)) :=
        { toFun := fun p => ((p.1.1, Function.update p.1.2 i p.2), p.1.2 i)
          invFun := fun p => ((p.1.1, Function.update p.1.2 i p.2), p.1.2 i)
          left_inv := fun p => by simp
          right_inv := fun p => by simp } with he
      rw [hG, ← freq_equiv e, ← freq_fst (Ω' := Fin m → Fin 4294967296)
        (fun r : (Fin Q → Fin (n + m) → Fin 4294967293) × (Fin Q → Fin m → Fin 4294967296) => D (hybrid A (i.val + 1) r))]
      congr 1
      funext p
      refine congrArg D ?_
      funext j
      simp only [mixed, hybrid, he, Equiv.coe_fn_mk, Fin.lt_def]
      by_cases h2 : j = i
      · subst h2; simp
      · have hv : j.val ≠ i.val := fun h => h2 (Fin.ext h)
        by_cases h1 : j.val < i.val
        · simp [h1, show j.val < i.val + 1 by omega, Function.update_of_ne h2]
        · simp [h1, h2, show ¬ j.val < i.val + 1 by omega]
  unfold lweAdvantage
  rw [← h0, ← hQ, sum_congr rfl fun i _ => hstep i]
  have tele : ∀ k, |G 0 - G k| ≤ ∑ i ∈ range k, |G i - G (i + 1)| := by
    intro k
    induction k with
    | zero => simp
    | succ k ih =>
      rw [sum_range_succ]
      have := abs_sub_le (G 0) (G k) (G (k + 1))
      linarith
  have := tele Q
  rwa [← Fin.sum_univ_eq_sum_range (fun i => |G i - G (i + 1)|)] at this

/-! ## Adaptive choices -/

theorem freq_session {K K' Ω O : Type*} [Fintype Ω] (X : K → Ω → O) (Y : K' → Ω → O) (a : List O → K) (b : List O → K')
    (δ : ℚ) (hδ : 0 ≤ δ)
    (h : ∀ seen (test : O → Prop), |freq (fun w => test (X (a seen) w)) - freq (fun w => test (Y (b seen) w))| ≤ δ) :
    ∀ (Q : Nat) (seen : List O) (test : List O → Prop),
      |freq (fun w : Fin Q → Ω => test (session X a Q w seen)) - freq (fun w : Fin Q → Ω => test (session Y b Q w seen))| ≤
        Q * δ := by
  intro Q
  induction Q with
  | zero =>
    intro seen test
    simp [session]
  | succ Q ih =>
    intro seen test
    have split : ∀ Z : (Fin (Q + 1) → Ω) → Prop,
        freq Z = freq (fun p : Ω × (Fin Q → Ω) => Z (Fin.cons p.1 p.2)) := by
      intro Z
      exact (freq_equiv (Fin.consEquiv fun _ => Ω) Z).symm
    rw [show freq (fun w : Fin (Q + 1) → Ω => test (session X a (Q + 1) w seen)) =
        freq (fun p : Ω × (Fin Q → Ω) => test (session X a Q p.2 (seen ++ [X (a seen) p.1]))) from split _,
      show freq (fun w : Fin (Q + 1) → Ω => test (session Y b (Q + 1) w seen)) =
        freq (fun p : Ω × (Fin Q → Ω) => test (session Y b Q p.2 (seen ++ [Y (b seen) p.1]))) from split _]
    have h1 : |freq (fun p : Ω × (Fin Q → Ω) => test (session X a Q p.2 (seen ++ [X (a seen) p.1]))) -
        freq (fun p : Ω × (Fin Q → Ω) => test (session Y b Q p.2 (seen ++ [X (a seen) p.1])))| ≤ Q * δ := by
      rw [freq_prod, freq_prod]
      apply avg_close (mul_nonneg (Nat.cast_nonneg _) hδ)
      intro w
      dsimp only
      exact ih (seen ++ [X (a seen) w]) test
    have h2 : |freq (fun p : Ω × (Fin Q → Ω) => test (session Y b Q p.2 (seen ++ [X (a seen) p.1]))) -
        freq (fun p : Ω × (Fin Q → Ω) => test (session Y b Q p.2 (seen ++ [Y (b seen) p.1])))| ≤ δ := by
      rw [← freq_equiv (Equiv.prodComm (Fin Q → Ω) Ω), freq_prod]
      rw [← freq_equiv (Equiv.prodComm (Fin Q → Ω) Ω), freq_prod]
      apply avg_close hδ
      intro v
      dsimp only [Equiv.prodComm_apply, Prod.swap_prod_mk]
      exact h seen fun o => test (session Y b Q v (seen ++ [o]))
    have := abs_sub_le
      (freq (fun p : Ω × (Fin Q → Ω) => test (session X a Q p.2 (seen ++ [X (a seen) p.1]))))
      (freq (fun p : Ω × (Fin Q → Ω) => test (session Y b Q p.2 (seen ++ [X (a seen) p.1]))))
      (freq (fun p : Ω × (Fin Q → Ω) => test (session Y b Q p.2 (seen ++ [Y (b seen) p.1]))))
    rw [Nat.cast_add, Nat.cast_one, add_mul, one_mul]
    exact le_trans this (add_le_add h1 h2)

theorem session_congr {K Ω Ω' O : Type*} (X : K → Ω → O) (Y : K → Ω' → O) (f : Ω → Ω') (a : List O → K)
    (h : ∀ k w, X k w = Y k (f w)) : ∀ (Q : Nat) (w : Fin Q → Ω) (seen : List O),
    session X a Q w seen = session Y a Q (fun i => f (w i)) seen := by
  intro Q
  induction Q with
  | zero => intros; rfl
  | succ Q ih =>
    intro w seen
    simp only [session]
    rw [ih, h]
    rfl

/-- **C102 (adaptive privacy of keyword queries).** The server chooses, after each query and from everything it has seen, which
two keys are candidates for the next one (`ask` and `ask'`); the client always asks for the first or always for the second. -/
theorem C102_kv_adaptive (prof : Profile) (size segExp cap0 : Nat) (lay : Layout)
    (hlay : bfLayout size segExp cap0 = .ok lay) (params : KVParams)
    (hg : params.filterParams.geom = lay.geom) (hs : params.filterParams.seed.length = 32)
    (hb : params.plaintextBits ≤ 31) {n : Nat} (A : Fin lay.arrayLen → Fin n → U32)
    (hn : params.dim = n) (hr : ∀ c ∈ params.rhs, c.length = n) (Q : Nat) (ask ask' : List (Res (List U32)) → Key)
    (test : List (Res (List U32)) → Prop) :
    let send := fun (k : Key) (t : Fin (n + lay.arrayLen) → Fin 4294967293) => kvSend prof (columns A) params k (words t)
    |freq (fun T : Fin Q → Fin (n + lay.arrayLen) → Fin 4294967293 => test (session send ask Q T [])) -
      freq (fun T : Fin Q → Fin (n + lay.arrayLen) → Fin 4294967293 => test (session send ask' Q T []))| ≤
      lweAdvantage A (fun v : Fin Q → List U32 => test (session (kvQueryFrom prof params) ask Q v [])) +
      lweAdvantage A (fun v : Fin Q → List U32 => test (session (kvQueryFrom prof params) ask' Q v [])) := by
  intro send
  have e1 : ∀ (a : List (Res (List U32)) → Key) (T : Fin Q → Fin (n + lay.arrayLen) → Fin 4294967293),
      session send a Q T [] = session (kvQueryFrom prof params) a Q (fun i => lwe A (T i)) [] := fun a T =>
    session_congr send _ (lwe A) a (fun k w => kvSend_eq prof A params hn hr k w) Q T []
  have e2 : ∀ (a : List (Res (List U32)) → Key) (u : Fin Q → Fin lay.arrayLen → Fin 4294967296),
      session (fun k u => kvQueryFrom prof params k (maskOf u)) a Q u [] =
        session (kvQueryFrom prof params) a Q (fun i => maskOf (u i)) [] := fun a u =>
    session_congr _ _ maskOf a (fun _ _ => rfl) Q u []
  have h := freq_session (fun k (u : Fin lay.arrayLen → Fin 4294967296) => kvQueryFrom prof params k (maskOf u))
    (fun k u => kvQueryFrom prof params k (maskOf u)) ask ask' 0 (le_refl _) (by
      intro seen test
      have := C65_kv_no_advantage prof size segExp cap0 lay hlay params.filterParams hg hs
        ⟨[], [], params.elemSize, params.plaintextBits, some params.filterParams, false⟩ hb rfl rfl
        (ask seen) (ask' seen) test
      have e : freq (fun w : Fin lay.arrayLen → Fin 4294967296 =>
          test (kvQueryFrom prof params (ask seen) (maskOf w))) =
          freq (fun w : Fin lay.arrayLen → Fin 4294967296 =>
            test (kvQueryFrom prof params (ask' seen) (maskOf w))) := by
        unfold freq kvQueryFrom
        rw [this]
      rw [e]; simp) Q [] test
  simp only [e1, e2] at h ⊢
  rw [mul_zero] at h
  refine le_trans (three_steps rfl h rfl) (le_of_eq ?_)
  rw [add_zero]
  rfl

/-- **C102 (adaptive privacy of index queries).** The same for row indices, up to `2^-b (1 - 2^-b)` for each query. -/
theorem C102_index_adaptive (prof : Profile) (params : IndexParams) (hb1 : 1 ≤ params.plaintextBits)
    (hb : params.plaintextBits ≤ 31) {n m : Nat} (A : Fin m → Fin n → U32)
    (hn : params.dim = n) (hr : ∀ c ∈ params.rhs, c.length = n) (Q : Nat) (ask ask' : List (Res (List U32)) → Fin m)
    (test : List (Res (List U32)) → Prop) :
    let send := fun (i : Fin m) (t : Fin (n + m) → Fin 4294967293) => indexSend prof (columns A) params i (words t)
    |freq (fun T : Fin Q → Fin (n + m) → Fin 4294967293 => test (session send ask Q T [])) -
      freq (fun T : Fin Q → Fin (n + m) → Fin 4294967293 => test (session send ask' Q T []))| ≤
      lweAdvantage A (fun v : Fin Q → List U32 =>
        test (session (fun (i : Fin m) => indexQueryFrom prof params i) ask Q v [])) +
      lweAdvantage A (fun v : Fin Q → List U32 =>
        test (session (fun (i : Fin m) => indexQueryFrom prof params i) ask' Q v [])) +
      Q * ((2 ^ params.plaintextBits - 1) / (2 ^ params.plaintextBits) ^ 2) := by
  intro send
  have e1 : ∀ (a : List (Res (List U32)) → Fin m) (T : Fin Q → Fin (n + m) → Fin 4294967293),
      session send a Q T [] = session (fun (i : Fin m) => indexQueryFrom prof params i) a Q (fun i => lwe A (T i)) [] :=
    fun a T => session_congr send _ (lwe A) a (fun k w => indexSend_eq prof A params hn hr k w) Q T []
  have e2 : ∀ (a : List (Res (List U32)) → Fin m) (u : Fin Q → Fin m → Fin 4294967296),
      session (fun (i : Fin m) u => indexQueryFrom prof params i (maskOf u)) a Q u [] =
        session (fun (i : Fin m) => indexQueryFrom prof params i) a Q (fun i => maskOf (u i)) [] := fun a u =>
    session_congr _ _ maskOf a (fun _ _ => rfl) Q u []
  have h1p : (1 : ℚ) ≤ 2 ^ params.plaintextBits := one_le_pow₀ (by norm_num)
  have hδ : (0 : ℚ) ≤ (2 ^ params.plaintextBits - 1) / (2 ^ params.plaintextBits) ^ 2 := div_nonneg (by linarith) (by positivity)
  have h := freq_session (fun (i : Fin m) (u : Fin m → Fin 4294967296) => indexQueryFrom prof params i (maskOf u))
    (fun (i : Fin m) u => indexQueryFrom prof params i (maskOf u)) ask ask' _ hδ (fun seen test => by
      by_cases e : ask seen = ask' seen
      · rw [e]; simpa using hδ
      · rw [abs_le]
        have h1 := index_freq_close prof params hb1 hb (ask seen) (ask' seen) test e
        have h2 := index_freq_close prof params hb1 hb (ask' seen) (ask seen) test (Ne.symm e)
        constructor <;> linarith) Q [] test
  simp only [e1, e2] at h ⊢
  exact three_steps rfl h rfl

/-- Non-vacuity: a session of two queries in which the second row asked for depends on the first query seen. -/
example :
    let params : IndexParams := ⟨2, 3, [], [[1#32, 2#32]], 8, 10⟩
    let A := fun (i : Fin 3) (k : Fin 2) => BitVec.ofNat 32 (i.val + k.val)
    let ask : List (Res (List U32)) → Fin 3 := fun seen => if seen = [] then 0 else if seen = [.ok [4194306#32, 4#32, 6#32]] then 2 else 1
    params.dim = 2 ∧ (∀ c ∈ params.rhs, c.length = 2) ∧
    session (fun (i : Fin 3) (t : Fin (2 + 3) → Fin 4294967293) => indexSend .debug (columns A) params i (words t)) ask 2
      (fun _ _ => 1431655765) [] = [.ok [4194306#32, 4#32, 6#32], .ok [2#32, 4#32, 4194310#32]] := by
  refine ⟨rfl, by simp, by decide⟩

end Chalamet
