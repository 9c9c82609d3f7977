import Verif.Props.Leakage
import Verif.Props.FailureRate
import Mathlib.Algebra.BigOperators.Field
import Mathlib.Algebra.Order.BigOperators.Group.Finset
import Mathlib.Algebra.Order.Field.Basic
import Mathlib.Tactic.Positivity
import Mathlib.Tactic.FieldSimp

/-!
# C77: what the privacy of queries rests on

A client sends `Q` queries, each made from fresh query parameters. Its randomness is one tape of `n + m` accepted
words per query (`n` for the secret, `m` for the errors). The theorems compare what a server sees for two lists of
keys (or of row indices), with no assumption on the server's computing power: any way of telling the two apart
is turned, by an explicit construction, into a way of telling the masks `s·A + e` (ternary `s` and `e`) from
uniformly random words, that is, into an attack on decision-LWE for the public matrix `A`.
-/

namespace Chalamet
open Spec Finset

/-! ## Specification -/

open scoped Classical in
/-- Relative frequency of an event over a finite set of equally likely cases. -/
noncomputable def Spec.freq {Ω : Type*} [Fintype Ω] (P : Ω → Prop) : ℚ :=
  ((univ.filter P).card : ℚ) / Fintype.card Ω

/-- The ternary value of an accepted word: `0`, `1` or `-1`, in three consecutive intervals. -/
def Spec.trit (v : Fin 4294967293) : Int :=
  if v.val ≤ 1431655764 then 0 else if v.val ≤ 2863311528 then 1 else -1

/-- An LWE sample for the public matrix `A` (`m` columns of `n` words): `s·A + e` modulo `2^32`, where the first
`n` words of `t` choose the secret `s` and the other `m` the errors `e`. -/
def Spec.lwe {n m : Nat} (A : Fin m → Fin n → U32) (t : Fin (n + m) → Fin 4294967293) : List U32 :=
  List.ofFn fun i => BitVec.ofInt 32
    ((∑ k, trit (t (Fin.castAdd m k)) * ((A i k).toNat : Int)) + trit (t (Fin.natAdd n i)))

/-- The public matrix as the library stores it. -/
def Spec.columns {n m : Nat} (A : Fin m → Fin n → U32) : List (List U32) :=
  List.ofFn fun i => List.ofFn (A i)

/-- How well `D` tells `Q` LWE samples (same matrix, fresh secrets) from `Q` uniformly random vectors. -/
noncomputable def Spec.lweAdvantage {n m Q : Nat} (A : Fin m → Fin n → U32)
    (D : (Fin Q → List U32) → Prop) : ℚ :=
  |freq (fun T : Fin Q → Fin (n + m) → Fin 4294967293 => D fun i => lwe A (T i)) -
    freq (fun u : Fin Q → Fin m → Fin 4294967296 => D fun i => maskOf (u i))|

/-- What a client with random tape `tape` sends (or the error it stops with) when asking for row `i`. -/
def indexSend (prof : Profile) (cp : List (List U32)) (params : IndexParams) (i : Nat) (tape : List U32) :
    Res (List U32) := do
  let (qp, _) ← generateIndexQueryParams cp params tape
  (qp.generateIndexQuery prof i).2

/-- What a client with random tape `tape` sends when asking for `key`. -/
def kvSend (prof : Profile) (cp : List (List U32)) (params : KVParams) (key : Key) (tape : List U32) :
    Res (List U32) := do
  let (qp, _) ← generateKvQueryParams cp params tape
  (qp.generateKvQuery prof key).2

/-! ## The mask is an LWE sample -/

theorem ternaryOf_trit (v : Fin 4294967293) :
    ternaryOf (BitVec.ofNat 32 v) = BitVec.ofInt 32 (trit v) := by
  rw [ternaryOf_clsOf]
  rfl

theorem words_append {n m : Nat} (t : Fin (n + m) → Fin 4294967293) :
    words t = words (fun k => t (Fin.castAdd m k)) ++ words (fun k => t (Fin.natAdd n k)) := by
  unfold words
  rw [List.ofFn_add]
  congr 1

theorem mask_drawn {n m : Nat} (A : Fin m → Fin n → U32) (t : Fin (n + m) → Fin 4294967293) :
    ∃ s tape, randomTernaryVector n (words t) = .ok (s, tape) ∧ s.length = n ∧
      multLeft s (columns A) tape = .ok (lwe A t, []) := by
  refine ⟨List.ofFn fun k => ternaryOf (BitVec.ofNat 32 (t (Fin.castAdd m k))),
    words (fun k => t (Fin.natAdd n k)), ?_, by simp, ?_⟩
  · rw [words_append]
    exact randomTernaryVector_append (words_sampled _)
  · rw [multLeft_spec]
    refine ⟨?_, List.ofFn fun k => ternaryOf (BitVec.ofNat 32 (t (Fin.natAdd n k))), ?_, ?_⟩
    · intro a ha
      simp only [columns, List.mem_ofFn] at ha
      obtain ⟨i, rfl⟩ := ha
      simp
    · have : (columns A).length = m := by simp [columns]
      rw [this]
      exact words_sampled _
    · apply List.ext_getElem
      · simp [lwe, vadd, columns]
      · intro i h1 h2
        simp only [lwe, vadd, columns, List.getElem_ofFn, List.getElem_zipWith, List.getElem_map]
        have e : (List.ofFn fun k => ternaryOf (BitVec.ofNat 32 (t (Fin.castAdd m k)))) =
            List.ofFn fun k => BitVec.ofInt 32 (trit (t (Fin.castAdd m k))) := by
          congr 1; funext k; rw [ternaryOf_trit]
        have hi : i < m := by simpa [lwe] using h1
        have hd := dot_ofFn (fun k => trit (t (Fin.castAdd m k))) (A ⟨i, hi⟩)
        rw [← e] at hd
        exact (BitVec.ofInt_add _ _).trans (congrArg₂ (· + ·) hd.symm (ternaryOf_trit _).symm)

/-- **C77 (index masks are LWE samples).** Making query parameters from a tape of accepted words never fails
(the parameters' columns having `dim` words) and yields the mask `s·A + e`. -/
theorem C77_index_mask {n m : Nat} (A : Fin m → Fin n → U32) (params : IndexParams) (hn : params.dim = n)
    (hr : ∀ c ∈ params.rhs, c.length = n) (t : Fin (n + m) → Fin 4294967293) :
    ∃ qp, generateIndexQueryParams (columns A) params (words t) = .ok (qp, []) ∧ qp.lhs = lwe A t ∧
      qp.plaintextBits = params.plaintextBits ∧ qp.used = false := by
  obtain ⟨s, tape, h1, h2, h3⟩ := mask_drawn A t
  obtain ⟨r, hrr⟩ : ∃ r, multRight params.rhs s = .ok r :=
    ⟨_, multRight_ok (fun c hc => by rw [h2, hr c hc])⟩
  refine ⟨?_, ?_, ?_, ?_, ?_⟩
  · exact { lhs := lwe A t, rhs := r, elemSize := params.elemSize,
             plaintextBits := params.plaintextBits, extraParams := none, used := false }
  · unfold generateIndexQueryParams
    rw [hn, h1]
    simp only [Res.bind_ok]
    rw [h3]
    simp only [Res.bind_ok]
    rw [hrr]
    rfl
  all_goals rfl

/-- **C77 (keyword masks are LWE samples).** -/
theorem C77_kv_mask {n m : Nat} (A : Fin m → Fin n → U32) (params : KVParams) (hn : params.dim = n)
    (hr : ∀ c ∈ params.rhs, c.length = n) (t : Fin (n + m) → Fin 4294967293) :
    ∃ qp, generateKvQueryParams (columns A) params (words t) = .ok (qp, []) ∧ qp.lhs = lwe A t ∧
      qp.plaintextBits = params.plaintextBits ∧ qp.extraParams = some params.filterParams ∧
      qp.used = false := by
  obtain ⟨s, tape, h1, h2, h3⟩ := mask_drawn A t
  obtain ⟨r, hrr⟩ : ∃ r, multRight params.rhs s = .ok r :=
    ⟨_, multRight_ok (fun c hc => by rw [h2, hr c hc])⟩
  refine ⟨?_, ?_, ?_, ?_, ?_, ?_⟩
  · exact { lhs := lwe A t, rhs := r, elemSize := params.elemSize,
             plaintextBits := params.plaintextBits, extraParams := some params.filterParams,
             used := false }
  · unfold generateKvQueryParams
    rw [hn, h1]
    simp only [Res.bind_ok]
    rw [h3]
    simp only [Res.bind_ok]
    rw [hrr]
    rfl
  all_goals rfl

/-! ## Frequencies -/

theorem freq_equiv {Ω Ω' : Type*} [Fintype Ω] [Fintype Ω'] (e : Ω ≃ Ω') (P : Ω' → Prop) :
    freq (fun w => P (e w)) = freq P := by
  classical
  unfold freq
  rw [Fintype.card_congr e]
  congr 2
  apply card_bij (fun w _ => e w)
  · intro w hw; simpa using hw
  · intro a _ b _ h; exact e.injective h
  · intro b hb; exact ⟨e.symm b, by simpa using hb, by simp⟩

theorem freq_prod {Ω Ω' : Type*} [Fintype Ω] [Fintype Ω'] (P : Ω × Ω' → Prop) :
    freq P = (∑ w, freq fun v => P (w, v)) / Fintype.card Ω := by
  classical
  unfold freq
  rw [← sum_div, div_div, Fintype.card_prod, mul_comm (Fintype.card Ω), Nat.cast_mul]
  congr 1
  rw [← Nat.cast_sum]
  congr 1
  rw [card_filter, Fintype.sum_prod_type]
  apply sum_congr rfl
  intro w _
  rw [card_filter]

theorem avg_close {Ω : Type*} [Fintype Ω] {f g : Ω → ℚ} {δ : ℚ} (hδ : 0 ≤ δ) (h : ∀ w, |f w - g w| ≤ δ) :
    |(∑ w, f w) / Fintype.card Ω - (∑ w, g w) / Fintype.card Ω| ≤ δ := by
  rw [← sub_div, ← sum_sub_distrib, abs_div]
  rcases Nat.eq_zero_or_pos (Fintype.card Ω) with h0 | h0
  · simp [h0, hδ]
  · have hp : (0 : ℚ) < Fintype.card Ω := by exact_mod_cast h0
    rw [abs_of_pos hp, div_le_iff₀ hp]
    calc |∑ w, (f w - g w)| ≤ ∑ w, |f w - g w| := abs_sum_le_sum_abs _ _
      _ ≤ ∑ _w : Ω, δ := sum_le_sum fun w _ => h w
      _ = δ * Fintype.card Ω := by simp [mul_comm]

/-- Independent draws: outcomes that are pairwise close are jointly close, with the distances added up. -/
theorem freq_hybrid {Ω O : Type*} [Fintype Ω] : ∀ {Q : Nat} (X Y : Fin Q → Ω → O) (δ : Fin Q → ℚ),
    (∀ i, 0 ≤ δ i) →
    (∀ i (test : O → Prop), |freq (fun w => test (X i w)) - freq (fun w => test (Y i w))| ≤ δ i) →
    ∀ test : (Fin Q → O) → Prop,
      |freq (fun w : Fin Q → Ω => test fun i => X i (w i)) -
        freq (fun w : Fin Q → Ω => test fun i => Y i (w i))| ≤ ∑ i, δ i := by
  intro Q
  induction Q with
  | zero =>
    intro X Y δ _ _ test
    have e : (fun w : Fin 0 → Ω => test fun i => X i (w i)) = fun w => test fun i => Y i (w i) := by
      funext w; congr 1; funext i; exact i.elim0
    rw [e]
    simp
  | succ Q ih =>
    intro X Y δ hδ h test
    have split : ∀ Z : Fin (Q + 1) → Ω → O,
        freq (fun w : Fin (Q + 1) → Ω => test fun i => Z i (w i)) =
          freq (fun p : Ω × (Fin Q → Ω) => test (Fin.cons (Z 0 p.1) fun i => Z i.succ (p.2 i))) := by
      intro Z
      rw [← freq_equiv (Fin.consEquiv fun _ => Ω)]
      congr 1
      funext p
      congr 1
      funext i
      refine Fin.cases ?_ (fun i => ?_) i <;> simp [Fin.consEquiv]
    rw [split X, split Y, Fin.sum_univ_succ]
    have h1 : |freq (fun p : Ω × (Fin Q → Ω) => test (Fin.cons (X 0 p.1) fun i => X i.succ (p.2 i))) -
        freq (fun p : Ω × (Fin Q → Ω) => test (Fin.cons (X 0 p.1) fun i => Y i.succ (p.2 i)))| ≤
        ∑ i : Fin Q, δ i.succ := by
      rw [freq_prod, freq_prod]
      apply avg_close (sum_nonneg fun i _ => hδ i.succ)
      intro w
      exact ih (fun i => X i.succ) (fun i => Y i.succ) (fun i => δ i.succ) (fun i => hδ i.succ)
        (fun i => h i.succ) fun o => test (Fin.cons (X 0 w) o)
    have h2 : |freq (fun p : Ω × (Fin Q → Ω) => test (Fin.cons (X 0 p.1) fun i => Y i.succ (p.2 i))) -
        freq (fun p : Ω × (Fin Q → Ω) => test (Fin.cons (Y 0 p.1) fun i => Y i.succ (p.2 i)))| ≤ δ 0 := by
      rw [← freq_equiv (Equiv.prodComm (Fin Q → Ω) Ω), freq_prod]
      rw [← freq_equiv (Equiv.prodComm (Fin Q → Ω) Ω), freq_prod]
      apply avg_close (hδ 0)
      intro v
      exact h 0 fun o => test (Fin.cons o fun i => Y i.succ (v i))
    have := abs_sub_le
      (freq (fun p : Ω × (Fin Q → Ω) => test (Fin.cons (X 0 p.1) fun i => X i.succ (p.2 i))))
      (freq (fun p : Ω × (Fin Q → Ω) => test (Fin.cons (X 0 p.1) fun i => Y i.succ (p.2 i))))
      (freq (fun p : Ω × (Fin Q → Ω) => test (Fin.cons (Y 0 p.1) fun i => Y i.succ (p.2 i))))
    linarith

/-! ## The reductions -/

/-- The query for `key` masked with `v`, as `generate_query` computes it from public data and `v` alone. -/
def kvQueryFrom (prof : Profile) (params : KVParams) (key : Key) (v : List U32) : Res (List U32) :=
  (QueryParams.generateKvQuery prof ⟨v, [], params.elemSize, params.plaintextBits,
    some params.filterParams, false⟩ key).2

/-- The query for row `i` masked with `v`, as `generate_query` computes it from public data and `v` alone. -/
def indexQueryFrom (prof : Profile) (params : IndexParams) (i : Nat) (v : List U32) : Res (List U32) :=
  (QueryParams.generateIndexQuery prof ⟨v, [], params.elemSize, params.plaintextBits, none, false⟩ i).2

theorem kvSend_eq (prof : Profile) {n m : Nat} (A : Fin m → Fin n → U32) (params : KVParams)
    (hn : params.dim = n) (hr : ∀ c ∈ params.rhs, c.length = n) (key : Key)
    (t : Fin (n + m) → Fin 4294967293) :
    kvSend prof (columns A) params key (words t) = kvQueryFrom prof params key (lwe A t) := by
  obtain ⟨qp, h, h1, h2, h3, h4⟩ := C77_kv_mask A params hn hr t
  unfold kvSend kvQueryFrom
  rw [h]
  simp only [Res.bind_ok]
  unfold QueryParams.generateKvQuery
  simp only [h4, Bool.false_eq_true, if_false]
  unfold kvQueryBody
  simp only [h1, h2, h3]

theorem indexSend_eq (prof : Profile) {n m : Nat} (A : Fin m → Fin n → U32) (params : IndexParams)
    (hn : params.dim = n) (hr : ∀ c ∈ params.rhs, c.length = n) (i : Nat)
    (t : Fin (n + m) → Fin 4294967293) :
    indexSend prof (columns A) params i (words t) = indexQueryFrom prof params i (lwe A t) := by
  obtain ⟨qp, h, h1, h2, h4⟩ := C77_index_mask A params hn hr t
  unfold indexSend indexQueryFrom
  rw [h]
  simp only [Res.bind_ok]
  unfold QueryParams.generateIndexQuery
  simp only [h4, Bool.false_eq_true, if_false]
  unfold indexQueryBody
  simp only [h1, h2]

theorem three_steps {a b c d x y z : ℚ} (h1 : |a - b| = x) (h2 : |b - c| ≤ y) (h3 : |d - c| = z) :
    |a - d| ≤ x + z + y := by
  have e1 := abs_sub_le a b d
  have e2 := abs_sub_le b c d
  rw [abs_sub_comm d c] at h3
  linarith

/-- **C77 (keyword privacy reduces to LWE).** Take any valid filter parameters, any public matrix `A`, any two
lists of `Q` keys, and any test on what the server sees when each query is made with fresh randomness. The test
tells the two lists apart at most as well as two explicit tests tell LWE samples from random vectors: namely,
adding the queried keys' indicator vectors to the given vectors and applying the test. -/
theorem C77_kv_privacy (prof : Profile) (size segExp cap0 : Nat) (lay : Layout)
    (hlay : bfLayout size segExp cap0 = .ok lay) (params : KVParams)
    (hg : params.filterParams.geom = lay.geom) (hs : params.filterParams.seed.length = 32)
    (hb : params.plaintextBits ≤ 31) {n Q : Nat} (A : Fin lay.arrayLen → Fin n → U32)
    (hn : params.dim = n) (hr : ∀ c ∈ params.rhs, c.length = n) (ks ks' : Fin Q → Key)
    (test : (Fin Q → Res (List U32)) → Prop) :
    |freq (fun T : Fin Q → Fin (n + lay.arrayLen) → Fin 4294967293 =>
        test fun i => kvSend prof (columns A) params (ks i) (words (T i))) -
      freq (fun T : Fin Q → Fin (n + lay.arrayLen) → Fin 4294967293 =>
        test fun i => kvSend prof (columns A) params (ks' i) (words (T i)))| ≤
      lweAdvantage A (fun v => test fun i => kvQueryFrom prof params (ks i) (v i)) +
      lweAdvantage A (fun v => test fun i => kvQueryFrom prof params (ks' i) (v i)) := by
  simp only [kvSend_eq prof A params hn hr]
  have h := freq_hybrid (fun i (u : Fin lay.arrayLen → Fin 4294967296) =>
      kvQueryFrom prof params (ks i) (maskOf u)) (fun i u => kvQueryFrom prof params (ks' i) (maskOf u))
    (fun _ => 0) (fun _ => le_refl _) (by
      intro i test
      have := C65_kv_no_advantage prof size segExp cap0 lay hlay params.filterParams hg hs
        ⟨[], [], params.elemSize, params.plaintextBits, some params.filterParams, false⟩ hb rfl rfl
        (ks i) (ks' i) test
      have e : freq (fun w : Fin lay.arrayLen → Fin 4294967296 =>
          test (kvQueryFrom prof params (ks i) (maskOf w))) =
          freq (fun w : Fin lay.arrayLen → Fin 4294967296 =>
            test (kvQueryFrom prof params (ks' i) (maskOf w))) := by
        unfold freq kvQueryFrom
        rw [this]
      rw [e]; simp) test
  rw [sum_const_zero] at h
  refine le_trans (three_steps rfl h rfl) (le_of_eq ?_)
  rw [add_zero]
  rfl

theorem index_freq_close (prof : Profile) (params : IndexParams) (hb1 : 1 ≤ params.plaintextBits)
    (hb : params.plaintextBits ≤ 31) {m : Nat} (i j : Fin m) (test : Res (List U32) → Prop) (hij : i ≠ j) :
    freq (fun u : Fin m → Fin 4294967296 => test (indexQueryFrom prof params i (maskOf u))) ≤
    freq (fun u : Fin m → Fin 4294967296 => test (indexQueryFrom prof params j (maskOf u))) +
      (2 ^ params.plaintextBits - 1) / (2 ^ params.plaintextBits) ^ 2 := by
  classical
  have hp : (0 : ℚ) < 2 ^ params.plaintextBits := by positivity
  have h := C65_advantage_at_most prof ⟨[], [], params.elemSize, params.plaintextBits, none, false⟩
    params.plaintextBits m hb1 hb i j hij test
  change (univ.filter fun u : Fin m → Fin 4294967296 =>
      test (indexQueryFrom prof params i (maskOf u))).card * _ ≤
    (univ.filter fun u : Fin m → Fin 4294967296 =>
      test (indexQueryFrom prof params j (maskOf u))).card * _ + _ at h
  unfold freq
  have hc : (Fintype.card (Fin m → Fin 4294967296) : ℚ) = (2 ^ 32) ^ m := by
    simp; norm_num
  rw [hc]
  have hcp : (0 : ℚ) < (2 ^ 32) ^ m := by positivity
  rw [div_add_div _ _ hcp.ne' (by positivity), div_le_div_iff₀ hcp (by positivity)]
  have hq : ∀ c d : Nat, c * (2 ^ params.plaintextBits * 2 ^ params.plaintextBits) ≤ d * (2 ^ params.plaintextBits * 2 ^ params.plaintextBits) + (2 ^ params.plaintextBits - 1) * (2 ^ 32) ^ m →
      (c : ℚ) * (2 ^ params.plaintextBits * 2 ^ params.plaintextBits) ≤ d * (2 ^ params.plaintextBits * 2 ^ params.plaintextBits) + (2 ^ params.plaintextBits - 1) * (2 ^ 32) ^ m := by
    intro c d h
    have h' : (c : ℚ) * (2 ^ params.plaintextBits * 2 ^ params.plaintextBits) ≤ d * (2 ^ params.plaintextBits * 2 ^ params.plaintextBits) + ((2 ^ params.plaintextBits - 1 : Nat) : ℚ) * (2 ^ 32) ^ m := by
      exact_mod_cast h
    rwa [Nat.cast_sub Nat.one_le_two_pow, Nat.cast_pow, Nat.cast_ofNat, Nat.cast_one] at h'
  have h' := hq _ _ h
  calc _ = (_ * (2 ^ params.plaintextBits * 2 ^ params.plaintextBits)) * (2 ^ 32) ^ m := by ring
    _ ≤ _ := mul_le_mul_of_nonneg_right h' hcp.le
    _ = _ := by ring

/-- **C77 (index privacy reduces to LWE, up to the overflow error).** The same for row indices, `1 ≤ b ≤ 31`
plaintext bits: to the two LWE advantages is added `2^-b (1 - 2^-b)` for every query where the two lists differ,
the leakage of the checked addition (C65). -/
theorem C77_index_privacy (prof : Profile) (params : IndexParams) (hb1 : 1 ≤ params.plaintextBits)
    (hb : params.plaintextBits ≤ 31) {n m Q : Nat} (A : Fin m → Fin n → U32)
    (hn : params.dim = n) (hr : ∀ c ∈ params.rhs, c.length = n) (is js : Fin Q → Fin m)
    (test : (Fin Q → Res (List U32)) → Prop) :
    |freq (fun T : Fin Q → Fin (n + m) → Fin 4294967293 =>
        test fun k => indexSend prof (columns A) params (is k) (words (T k))) -
      freq (fun T : Fin Q → Fin (n + m) → Fin 4294967293 =>
        test fun k => indexSend prof (columns A) params (js k) (words (T k)))| ≤
      lweAdvantage A (fun v => test fun k => indexQueryFrom prof params (is k) (v k)) +
      lweAdvantage A (fun v => test fun k => indexQueryFrom prof params (js k) (v k)) +
      (univ.filter fun k => is k ≠ js k).card *
        ((2 ^ params.plaintextBits - 1) / (2 ^ params.plaintextBits) ^ 2) := by
  classical
  simp only [indexSend_eq prof A params hn hr]
  have hp : (0 : ℚ) < 2 ^ params.plaintextBits := by positivity
  have h1p : (1 : ℚ) ≤ 2 ^ params.plaintextBits := one_le_pow₀ (by norm_num)
  have hδ : (0 : ℚ) ≤ (2 ^ params.plaintextBits - 1) / (2 ^ params.plaintextBits) ^ 2 := div_nonneg (by linarith) (by positivity)
  have key := fun (i j : Fin m) test hij => index_freq_close prof params hb1 hb i j test hij
  have h := freq_hybrid (fun k (u : Fin m → Fin 4294967296) =>
      indexQueryFrom prof params (is k) (maskOf u)) (fun k u => indexQueryFrom prof params (js k) (maskOf u))
    (fun k => if is k ≠ js k then (2 ^ params.plaintextBits - 1) / (2 ^ params.plaintextBits) ^ 2 else 0)
    (fun k => by split <;> simp_all) (by
      intro k test
      by_cases e : is k = js k
      · simp [e]
      · rw [if_pos e, abs_le]
        have h1 := key (is k) (js k) test e
        have h2 := key (js k) (is k) test (Ne.symm e)
        constructor <;> linarith) test
  rw [← sum_filter, sum_const, nsmul_eq_mul] at h
  exact three_steps rfl h rfl

/-- **C77 (the matrix).** The matrix a client expands from a public seed has the shape assumed above. -/
theorem C77_public_matrix (prg : Prg) (seed : List U8) (n m : Nat) :
    commonParamsFrom prg seed n m =
      columns fun (i : Fin m) (k : Fin n) => prg seed (i.val * n + k.val) := by
  unfold commonParamsFrom columns
  rw [generateLwe_eq]
  apply List.ext_getElem
  · simp
  · intro i h1 h2
    simp only [List.getElem_map, List.getElem_range, List.getElem_ofFn]
    apply List.ext_getElem
    · simp
    · intro k h3 h4
      simp

/-- Non-vacuity: a real filter layout, two different keys, and a client that really sends a vector. -/
example : ∃ lay, bfLayout 3 3 16 = .ok lay ∧ 0 < lay.arrayLen ∧
    ∃ params : KVParams, params.filterParams.geom = lay.geom ∧ params.filterParams.seed.length = 32 ∧
      params.plaintextBits ≤ 31 ∧ params.dim = 2 ∧ (∀ c ∈ params.rhs, c.length = 2) ∧ params.rhs ≠ [] ∧
      ∀ (A : Fin lay.arrayLen → Fin 2 → U32) (t : Fin (2 + lay.arrayLen) → Fin 4294967293),
        ∃ q, kvSend .debug (columns A) params [1#64, 2#64, 3#64, 4#64] (words t) = .ok q := by
  obtain ⟨lay, hlay⟩ : ∃ lay, bfLayout 3 3 16 = .ok lay := ⟨_, rfl⟩
  refine ⟨lay, hlay, by cases hlay; decide, ⟨2, lay.arrayLen, [], [[1#32, 2#32]], 8, 8,
    { seed := exSeed, geom := lay.geom }⟩, rfl, show exSeed.length = 32 by decide,
    show 8 ≤ 31 by decide, rfl, by simp, by simp, ?_⟩
  intro A t
  rw [kvSend_eq .debug A _ rfl (by simp)]
  obtain ⟨_, q, _, _, _, _, h, _⟩ := C07_kv_query_outcome .debug 3 3 16 lay hlay
    { seed := exSeed, geom := lay.geom } rfl (show exSeed.length = 32 by decide)
    ⟨lwe A t, [], 8, 8, some { seed := exSeed, geom := lay.geom }, false⟩
    (show 8 ≤ 31 by decide) rfl rfl (by simp [lwe]) [1#64, 2#64, 3#64, 4#64]
  exact ⟨q, h⟩

/-- Non-vacuity: index parameters of dimension two over three rows; the first row is really sent when all
trits are one. -/
example : ∃ params : IndexParams, (1 ≤ params.plaintextBits ∧ params.plaintextBits ≤ 31) ∧ params.dim = 2 ∧
    (∀ c ∈ params.rhs, c.length = 2) ∧ params.rhs ≠ [] ∧
    indexSend .debug (columns fun (i : Fin 3) (k : Fin 2) => BitVec.ofNat 32 (i.val + k.val)) params 0
      (words fun _ : Fin (2 + 3) => 1431655765) = .ok [4194306#32, 4#32, 6#32] := by
  exact ⟨⟨2, 3, [], [[1#32, 2#32]], 8, 10⟩, by decide, rfl, by simp, by simp, by decide⟩

end Chalamet
