import Verif.Model.Tests
import Verif.Props.BenchRun
import Verif.Props.Stale
import Verif.Props.FailureRate

/-!
# C110: when the project's own tests pass (src/api.rs)
-/

namespace Chalamet
open Spec Finset

theorem forRes_nil {α : Type} (f : α → Res Unit) : forRes [] f = .ok () := rfl

theorem forRes_cons {α : Type} (a : α) (l : List α) (f : α → Res Unit) :
    forRes (a :: l) f = f a >>= fun _ => forRes l f := rfl

/-- A loop of assertions passes iff every one holds. -/
theorem forRes_ok {α : Type} {l : List α} {f : α → Res Unit} : forRes l f = .ok () ↔ ∀ a ∈ l, f a = .ok () := by
  induction l with
  | nil => simp [forRes_nil]
  | cons a l ih =>
    rw [forRes_cons]
    cases h : f a with
    | ok u => simpa [h] using ih
    | err e => simp [h]
    | panic => simp [h]
    | diverge => simp [h]

theorem forRes_ok_or_panic {α : Type} {l : List α} {f : α → Res Unit} (h : ∀ a ∈ l, f a = .ok () ∨ f a = .panic) :
    forRes l f = .ok () ∨ forRes l f = .panic := by
  induction l with
  | nil => exact .inl rfl
  | cons a l ih =>
    rw [forRes_cons]
    rcases h a (by simp) with e | e
    · rw [e]
      exact ih fun x hx => h x (by simp [hx])
    · rw [e]
      exact .inr rfl

/-- Lists of digits below `2^b` of the same length and value are equal. -/
theorem horner_inj {b : Nat} {l₁ l₂ : List Nat} (hl : l₁.length = l₂.length) (h1 : ∀ x ∈ l₁, x < 2 ^ b)
    (h2 : ∀ x ∈ l₂, x < 2 ^ b) (h : horner b l₁ = horner b l₂) : l₁ = l₂ := by
  induction l₁ generalizing l₂ with
  | nil =>
    cases l₂ with
    | nil => rfl
    | cons => simp at hl
  | cons x xs ih =>
    cases l₂ with
    | nil => simp at hl
    | cons y ys =>
      have hx := h1 x (by simp)
      have hy := h2 y (by simp)
      simp only [horner] at h
      have e1 : x = y := by
        have := congrArg (· % 2 ^ b) h
        simpa [Nat.add_mul_mod_self_left, Nat.mod_eq_of_lt hx, Nat.mod_eq_of_lt hy] using this
      subst e1
      have e2 : horner b xs = horner b ys := by
        have := Nat.add_left_cancel h
        exact Nat.eq_of_mul_eq_mul_left (Nat.two_pow_pos b) this
      rw [ih (by simpa using hl) (fun z hz => h1 z (by simp [hz])) (fun z hz => h2 z (by simp [hz])) e2]

/-- The string of a row whose digits are off by `c j` is the string of the element iff no digit is off (the last one,
only part of which is used, is assumed right). -/
theorem string_right_iff {prof : Profile} {e : List U8} {b T : Nat} (hb1 : 1 ≤ b) (hb : b ≤ 31) (hT : T = 8 * e.length)
    (hdvd : ¬ b ∣ T) (c : Nat → Nat) (hlast : c (T / b) % 2 ^ b = 0) :
    ∃ str, base64FromU32Slice prof ((List.range (width T b)).map fun j =>
        BitVec.ofNat 32 ((digit b (leNat e) j + c j) % 2 ^ b)) b T = .ok str ∧
      (str = b64Encode e ↔ ∀ j < width T b, c j % 2 ^ b = 0) := by
  have hw : width T b = T / b + 1 := by
    have hr : T % b ≠ 0 := fun h => hdvd (Nat.dvd_of_mod_eq_zero h)
    have hd := Nat.div_add_mod T b
    have hm := Nat.mod_lt T (show 0 < b by omega)
    unfold width
    apply Nat.div_eq_of_lt_le
    · rw [Nat.add_mul, Nat.mul_comm]; omega
    · rw [Nat.add_mul, Nat.add_mul, Nat.mul_comm]; omega
  have h2b : (2 : Nat) ^ b < 2 ^ 32 := Nat.pow_lt_pow_right (by omega) (by omega)
  have hv : ∀ j, (BitVec.ofNat 32 ((digit b (leNat e) j + c j) % 2 ^ b)).toNat = (digit b (leNat e) j + c j) % 2 ^ b := by
    intro j
    rw [BitVec.toNat_ofNat]
    exact Nat.mod_eq_of_lt (lt_trans (Nat.mod_lt _ (Nat.two_pow_pos b)) h2b)
  have hgood : (∀ j < width T b, c j % 2 ^ b = 0) →
      ((List.range (width T b)).map fun j => BitVec.ofNat 32 ((digit b (leNat e) j + c j) % 2 ^ b)) =
        (List.range (width T b)).map fun j => BitVec.ofNat 32 (digit b (leNat e) j) := by
    intro h
    apply List.map_congr_left
    intro j hj
    rw [List.mem_range] at hj
    rw [(add_mod_eq_left (digit_lt b _ j)).2 (h j hj)]
  obtain ⟨bytes, h1, h2, h3⟩ := bytesFromU32Slice_val (prof := prof)
    (v := (List.range (T / b)).map fun j => BitVec.ofNat 32 ((digit b (leNat e) j + c j) % 2 ^ b))
    (x := BitVec.ofNat 32 ((digit b (leNat e) (T / b) + c (T / b)) % 2 ^ b)) (T := T) (show 0 < b by omega) (by omega)
  obtain ⟨bytes', g1, g2, g3⟩ := decode_digits (prof := prof) (N := leNat e) (show 0 < b by omega) (show b ≤ 32 by omega) hdvd
  have ge : bytes' = e := by
    apply leNat_inj (by omega)
    rw [g3, hT, Nat.mod_eq_of_lt]
    have := leNat_lt e
    rwa [show (256 : Nat) = 2 ^ 8 from rfl, ← Nat.pow_mul] at this
  subst ge
  have hrow : ((List.range (width T b)).map fun j => BitVec.ofNat 32 ((digit b (leNat bytes') j + c j) % 2 ^ b)) =
      ((List.range (T / b)).map fun j => BitVec.ofNat 32 ((digit b (leNat bytes') j + c j) % 2 ^ b)) ++
        [BitVec.ofNat 32 ((digit b (leNat bytes') (T / b) + c (T / b)) % 2 ^ b)] := by
    rw [hw, List.range_succ, List.map_append]
    rfl
  refine ⟨b64Encode bytes, ?_, ?_⟩
  · unfold base64FromU32Slice
    rw [hrow, h1]
    rfl
  · constructor
    · intro h
      have hbe : bytes = bytes' := by
        have := congrArg b64Decode h
        rw [b64Decode_encode, b64Decode_encode] at this
        exact Res.ok.inj this
      subst hbe
      set d₁ := (List.range (T / b)).map fun j => (digit b (leNat bytes) j + c j) % 2 ^ b with hd₁
      set d₂ := (List.range (T / b)).map fun j => digit b (leNat bytes) j with hd₂
      have hv1 : (((List.range (T / b)).map fun j => BitVec.ofNat 32 ((digit b (leNat bytes) j + c j) % 2 ^ b)).map
          fun y => y.toNat % 2 ^ b) = d₁ := by
        rw [hd₁, List.map_map]
        apply List.map_congr_left
        intro j _
        simp only [Function.comp_apply, hv]
        exact Nat.mod_mod _ _
      have l1 : ∀ x ∈ d₁, x < 2 ^ b := by
        intro x hx
        obtain ⟨j, _, rfl⟩ := List.mem_map.1 hx
        exact Nat.mod_lt _ (Nat.two_pow_pos b)
      have l2 : ∀ x ∈ d₂, x < 2 ^ b := by
        intro x hx
        obtain ⟨j, _, rfl⟩ := List.mem_map.1 hx
        exact digit_lt _ _ _
      rw [hv1] at h3
      have hlen1 : d₁.length = T / b := by simp [hd₁]
      have hlen2 : d₂.length = T / b := by simp [hd₂]
      have k1 : leNat bytes % 2 ^ (b * (T / b)) = horner b d₁ := by
        have hl := horner_lt d₁ l1
        rw [hlen1] at hl
        conv_lhs => rw [h3]
        simp only [List.length_map, List.length_range]
        rw [Nat.add_mul_mod_self_left, Nat.mod_eq_of_lt hl]
      have k2 : leNat bytes % 2 ^ (b * (T / b)) = horner b d₂ := (horner_digits b _ _).symm
      have heq := horner_inj (by rw [hlen1, hlen2]) l1 l2 (k1.symm.trans k2)
      intro j hj
      rcases Nat.lt_or_ge j (T / b) with hj' | hj'
      · have := congrArg (fun l => l[j]?) heq
        simp only [hd₁, hd₂, List.getElem?_map, List.getElem?_range hj', Option.map_some, Option.some.injEq] at this
        exact (add_mod_eq_left (digit_lt b _ j)).1 this
      · rw [show j = T / b by omega]
        exact hlast
    · intro h
      have := hgood h
      rw [hrow] at this
      rw [this] at h1
      have : Res.ok bytes = Res.ok bytes' := by rw [← h1, ← g1]; rfl
      rw [Res.ok.inj this]

/-- Noise against a column of small entries stays in the window. -/
theorem noise_small {e c : List U32} {b B : Nat} (hb1 : 1 ≤ b) (he : ∀ x ∈ e, IsTernary x)
    (hc : ∀ y ∈ c, y.toNat ≤ B) (h : weight e * B < 2 ^ (31 - b)) : InWindow b (dot e c) := by
  obtain ⟨z, h1, h2, h3⟩ := dot_ternary_ofInt (B := B) he hc
  have hp : (2 : Nat) ^ (31 - b) ≤ 2 ^ 30 := Nat.pow_le_pow_right (by omega) (by omega)
  have hz : ((2 : Int) ^ (31 - b)) = ((2 ^ (31 - b) : Nat) : Int) := by norm_cast
  unfold InWindow
  rw [h1, signed_ofInt (by omega) (by omega), hz]
  omega

/-- The test data are base64 strings of elements of `len` bytes. -/
theorem testDbEles_spec (ent : Nat → U8) (num len : Nat) :
    ∃ elems : List (List U8), testDbEles ent num len = elems.map b64Encode ∧ elems.length = num ∧
      ∀ e ∈ elems, e.length = len := by
  obtain ⟨elems, h1, h2, h3, -⟩ := C87_bench_stream ent num len
  exact ⟨elems, h1, h2, h3⟩

theorem last_digit_small {e : List U8} {b T : Nat} (hT : T = 8 * e.length) : digit b (leNat e) (T / b) < 2 ^ (T % b) := by
  have h1 : leNat e < 2 ^ T := by
    have := leNat_lt e
    rwa [show (256 : Nat) = 2 ^ 8 from rfl, ← Nat.pow_mul, ← hT] at this
  unfold digit
  refine lt_of_le_of_lt (Nat.mod_le _ _) ?_
  rw [Nat.div_lt_iff_lt_mul (Nat.two_pow_pos _), ← Nat.pow_add, Nat.mod_add_div]
  exact h1

theorem testIndexBody_outcome {prof : Profile} {prg : Prg} {seed : List U8} {elems : List (List U8)} {n m T b : Nat}
    (hb1 : 1 ≤ b) (hb : b ≤ 31) (hm : elems.length = m) (hlen : ∀ e ∈ elems, T = 8 * e.length) (hT : T < 2 ^ 64)
    (hdvd : ¬ b ∣ T) (hsmall : m * 2 ^ (T % b) ≤ 2 ^ (31 - b)) {tape s t1 e t2 : List U32}
    (hs : randomTernaryVector n tape = .ok (s, t1)) (he : randomTernaryVector m t1 = .ok (e, t2)) {i : Nat} (hi : i < m) :
    let run := testIndexBody prof prg (shardOf prg seed elems n m T b) (elems.map b64Encode) tape i
    (run = .ok () ↔
      ((vadd ((generateLweMatrixFromSeed prg seed n m).map fun a => dot s a) e).getD i 0#32).toNat + 2 ^ (32 - b) < 2 ^ 32 ∧
      ∀ j < width T b, InWindow b (dot e (column b j elems))) ∧
    (run = .ok () ∨ run = .panic) := by
  intro run
  obtain ⟨qp, hqp, hl, hr, hu, hbits, hsize, hmask⟩ := shard_params (T := T) (b := b) prg seed elems hs he
  have hil : i < qp.lhs.length := by omega
  have hrun : run = (qp.generateIndexQuery prof i).2.unwrap >>= fun q => (do
      let dResp ← ((shardOf prg seed elems n m T b).respond q).unwrap
      let resp ← (bincodeDeserialize dResp).unwrap
      let output ← (qp.generateIndexQuery prof i).1.parseIndexBase64 prof resp
      let want ← rd (elems.map b64Encode) i
      assertEq output want) := by
    show testIndexBody _ _ _ _ _ _ = _
    unfold testIndexBody
    simp only [show (shardOf prg seed elems n m T b).baseParams.publicSeed = seed from rfl,
      show (shardOf prg seed elems n m T b).baseParams.dim = n from rfl,
      show (shardOf prg seed elems n m T b).baseParams.m = m from rfl, hqp, Res.unwrap_ok, Res.bind_ok]
  by_cases hov : ((vadd ((generateLweMatrixFromSeed prg seed n m).map fun a => dot s a) e).getD i 0#32).toNat +
      2 ^ (32 - b) < 2 ^ 32
  · obtain ⟨q, hq⟩ : ∃ q, (qp.generateIndexQuery prof i) = ({ qp with used := true }, .ok q) := by
      have := (C06_index_query_outcome prof qp i (by omega) (by omega) hu hil).2.1 (by
        rw [hbits, ← getD_lt hil, hmask]; exact hov)
      rw [indexQuery_fresh hu] at this ⊢
      exact ⟨_, Prod.ext rfl this⟩
    obtain ⟨s', t1', e', h1, h2, h3⟩ := index_exchange (prof := prof) hb1 hb (le_of_eq hm.symm) hqp
    rw [hs] at h1
    cases h1
    rw [he] at h2
    cases h2
    obtain ⟨_, resp, hans, hrow⟩ := h3 i _ q hq
    rw [List.take_of_length_le (le_of_eq hm)] at hrow
    have hrespl : resp.length = width T b := by
      unfold Shard.answer at hans
      rw [show (shardOf prg seed elems n m T b).db.getRowWidthSelf = .ok (width T b) from
        getRowWidth_ok (show 0 < b by omega), Res.bind_ok] at hans
      rw [mapRes_length hans, List.length_range]
    have hresp : (shardOf prg seed elems n m T b).respond q = .ok (bincodeSerialize resp) := by
      unfold Shard.respond
      rw [hans]
      rfl
    have hdes : bincodeDeserialize (bincodeSerialize resp) = .ok resp := by
      have := (C22_response_round_trip resp (by rw [hrespl]; exact lt_of_le_of_lt (width_le T b hb1) hT)).1 []
      rwa [List.append_nil] at this
    have hel := randomTernaryVector_spec he
    have hlast : InWindow b (dot e (column b (T / b) elems)) := by
      apply noise_small (B := 2 ^ (T % b) - 1) hb1 hel.2
      · intro y hy
        obtain ⟨x, hx, rfl⟩ := List.mem_map.1 hy
        rw [digit_toNat (by omega)]
        have := last_digit_small (b := b) (hlen x hx)
        omega
      · have hwe : weight e ≤ m := by
          unfold weight
          exact le_trans (List.length_filter_le _ _) (le_of_eq hel.1)
        have hp := Nat.two_pow_pos (T % b)
        have : m * (2 ^ (T % b) - 1) < m * 2 ^ (T % b) := Nat.mul_lt_mul_of_pos_left (by omega) (by omega)
        have := Nat.mul_le_mul_right (2 ^ (T % b) - 1) hwe
        omega
    obtain ⟨str, g1, g2⟩ := string_right_iff (prof := prof) (e := elems[i]) hb1 hb (hlen _ (List.getElem_mem _)) hdvd
      (fun j => carry b (dot e (column b j elems))) ((carry_window hb1 hb _).2 hlast)
    have hout : QueryParams.parseIndexBase64 prof { qp with used := true } resp = .ok str := by
      unfold QueryParams.parseIndexBase64
      rw [hrow, Res.bind_ok]
      simp only [hbits, hsize]
      exact g1
    have hfin : run = if str = b64Encode elems[i] then .ok () else .panic := by
      rw [hrun, hq]
      simp only [Res.unwrap_ok, Res.bind_ok, hresp, hdes, hout]
      rw [rd_ok (by simpa using by omega), Res.bind_ok, List.getElem_map]
      rfl
    rw [hfin]
    refine ⟨?_, ?_⟩
    · have hc : (∀ j < width T b, carry b (dot e (column b j elems)) % 2 ^ b = 0) ↔
          ∀ j < width T b, InWindow b (dot e (column b j elems)) :=
        forall₂_congr fun j _ => carry_window hb1 hb _
      rw [← hc, ← g2]
      by_cases h : str = b64Encode elems[i]
      · rw [if_pos h]; exact ⟨fun _ => ⟨hov, h⟩, fun _ => rfl⟩
      · rw [if_neg h]; exact ⟨fun h' => (by cases h'), fun h' => absurd h'.2 h⟩
    · by_cases h : str = b64Encode elems[i]
      · simp [h]
      · simp [h]
  · have := (C06_index_query_outcome prof qp i (by omega) (by omega) hu hil).2.2 (by
      rw [hbits, ← getD_lt hil, hmask]; exact Nat.le_of_not_lt hov)
    have hfin : run = .panic := by
      rw [hrun, this]
      rfl
    rw [hfin]
    exact ⟨⟨fun h => (by cases h), fun h => absurd h.1 hov⟩, .inr rfl⟩

/-- **C110 (ten queries).** `client_query_to_server_10_times` with any sizes: it passes iff for each query the addition does
not overflow and the noise is in the window for each column; otherwise it panics. The sizes must be whole bytes, `b` must not
divide them, and the last, partial digit must be safe; the sizes of the test are such. -/
theorem C110_index_test (prof : Profile) (prg : Prg) (ent : Nat → U8) (seed : List U8) (tapes : Nat → List U32)
    (m n T b count : Nat) (hb1 : 1 ≤ b) (hb : b ≤ 31) (hm : 0 < m) (h8 : 8 ∣ T) (hT : T < 2 ^ 64) (hdvd : ¬ b ∣ T)
    (hsmall : m * 2 ^ (T % b) ≤ 2 ^ (31 - b)) (hcount : count ≤ m) (s t1 e t2 : Nat → List U32)
    (hs : ∀ i < count, randomTernaryVector n (tapes i) = .ok (s i, t1 i))
    (he : ∀ i < count, randomTernaryVector m (t1 i) = .ok (e i, t2 i)) (elems : List (List U8))
    (hdec : (testDbEles ent m ((T + 7) / 8)).map b64Decode = elems.map Res.ok) :
    let run := testIndex prof prg ent seed tapes m n T b count
    (run = .ok () ↔ ∀ i < count,
      ((vadd ((generateLweMatrixFromSeed prg seed n m).map fun a => dot (s i) a) (e i)).getD i 0#32).toNat + 2 ^ (32 - b) <
        2 ^ 32 ∧
      ∀ j < width T b, InWindow b (dot (e i) (column b j elems))) ∧
    (run = .ok () ∨ run = .panic) := by
  intro run
  obtain ⟨elems', hstr, hlen, helen⟩ := testDbEles_spec ent m ((T + 7) / 8)
  have he' : elems' = elems := by
    rw [hstr, map_decode_encode] at hdec
    exact List.map_injective_iff.2 (fun a b h => Res.ok.inj h) hdec
  subst he'
  have hle : ∀ x ∈ elems', T = 8 * x.length := fun x hx => by have := helen x hx; omega
  have hbuild : Shard.fromBase64Strings prof prg seed (testDbEles ent m ((T + 7) / 8)) n m T b =
      .ok (shardOf prg seed elems' n m T b) := by
    rw [hstr]
    refine shard_ok (map_decode_encode elems') hb1 (by omega) hm (by omega) fun x hx => ?_
    have h2 : (width T b - 1) * b ≤ T := width_mul_le (by omega)
    have := hle x (List.mem_of_mem_take hx)
    omega
  have hrun : run = forRes (List.range count) fun i =>
      testIndexBody prof prg (shardOf prg seed elems' n m T b) (elems'.map b64Encode) (tapes i) i := by
    show testIndex _ _ _ _ _ _ _ _ _ _ = _
    unfold testIndex
    rw [hstr] at hbuild
    simp only [hstr, hbuild, Res.unwrap_ok, Res.bind_ok]
  have hbody := fun i (hi : i < count) => testIndexBody_outcome (prof := prof) (prg := prg) (seed := seed) hb1 hb hlen hle hT
    hdvd hsmall (hs i hi) (he i hi) (show i < m by omega)
  rw [hrun]
  constructor
  · rw [forRes_ok]
    constructor
    · intro h i hi
      exact (hbody i hi).1.1 (h i (List.mem_range.2 hi))
    · intro h i hi
      rw [List.mem_range] at hi
      exact (hbody i hi).1.2 (h i hi)
  · exact forRes_ok_or_panic fun i hi => (hbody i (List.mem_range.1 hi)).2

/-! ## How often they pass -/

/-- The generator `prg`, except that with seed `seed` the first `k` rows of the public matrix (rows of `n` words) are `rows`. -/
def Spec.withRows (prg : Prg) (seed : List U8) {k n : Nat} (rows : Fin k → Fin n → Fin 4294967296) : Prg :=
  fun sd x => if h : sd = seed ∧ x / n < k ∧ 0 < n then
    BitVec.ofNat 32 (rows ⟨x / n, h.2.1⟩ ⟨x % n, Nat.mod_lt _ h.2.2⟩) else prg sd x

theorem withRows_at (prg : Prg) (seed : List U8) {k n m : Nat} (rows : Fin k → Fin n → Fin 4294967296) (hk : k ≤ m)
    (i : Fin k) :
    (generateLweMatrixFromSeed (withRows prg seed rows) seed n m)[i.val]? =
      some (List.ofFn fun x => BitVec.ofNat 32 (rows i x).val) := by
  have h := C77_public_matrix (withRows prg seed rows) seed n m
  rw [show commonParamsFrom (withRows prg seed rows) seed n m = generateLweMatrixFromSeed (withRows prg seed rows) seed n m
    from rfl] at h
  rw [h]
  unfold columns
  rw [List.getElem?_ofFn, dif_pos (lt_of_lt_of_le i.isLt hk)]
  congr 1
  apply List.ext_getElem (by simp)
  intro x h1 h2
  have hx : x < n := by simpa using h1
  simp only [List.getElem_ofFn, withRows]
  have e1 : (i.val * n + x) / n = i.val := by
    rw [Nat.mul_comm, Nat.mul_add_div (by omega), Nat.div_eq_of_lt hx, Nat.add_zero]
  have e2 : (i.val * n + x) % n = x := by
    rw [Nat.mul_comm, Nat.mul_add_mod, Nat.mod_eq_of_lt hx]
  rw [dif_pos ⟨by trivial, by rw [e1]; exact i.isLt, by omega⟩]
  simp only [e1, e2, Fin.eta]

/-- Over all rows, the addition of `2^(32-b)` to the masked word does not overflow for exactly a fraction `1 - 2^-b`. -/
theorem card_no_overflow {n b : Nat} (hb1 : 1 ≤ b) (hb : b ≤ 31) {s : List U32} (hsl : s.length = n)
    (ht3 : ∀ x ∈ s, IsTernary x) (hs0 : ∃ x ∈ s, x ≠ 0#32) (c : U32) :
    (univ.filter fun a : Fin n → Fin 4294967296 =>
      (dot s (List.ofFn fun x => BitVec.ofNat 32 (a x).val) + c).toNat + 2 ^ (32 - b) < 2 ^ 32).card * 2 ^ b =
      (2 ^ b - 1) * (2 ^ 32) ^ n := by
  obtain ⟨x, hx, hxne⟩ := hs0
  obtain ⟨k, hk, rfl⟩ := List.getElem_of_mem hx
  have hunit : s[k] * s[k] = 1#32 := by
    rcases ht3 _ hx with h | h | h
    · exact absurd h hxne
    · rw [h]; rfl
    · rw [h]; rfl
  have hkn : k < n := by omega
  have hD : (2 : Nat) ^ 32 = 2 ^ (32 - b) * 2 ^ b := by rw [← Nat.pow_add, Nat.sub_add_cancel (by omega)]
  have hDpos := Nat.two_pow_pos (32 - b)
  have hbpos := Nat.two_pow_pos b
  have hF : ∀ a : Fin n → Fin 4294967296,
      (dot s (List.ofFn fun x => BitVec.ofNat 32 (a x).val) + c).toNat / 2 ^ (32 - b) < 2 ^ b := by
    intro a
    rw [Nat.div_lt_iff_lt_mul hDpos, Nat.mul_comm, ← hD]
    exact BitVec.isLt _
  have h := card_shift (fun a : Fin n → Fin 4294967296 =>
      (dot s (List.ofFn fun x => BitVec.ofNat 32 (a x).val) + c).toNat / 2 ^ (32 - b)) hF
    (fun a => Function.update a ⟨k, hkn⟩
      ⟨((a ⟨k, hkn⟩).val + (s[k] * BitVec.ofNat 32 (2 ^ (32 - b))).toNat) % 4294967296, Nat.mod_lt _ (by norm_num)⟩) ?_ ?_
    (d := 2 ^ b - 1) (by omega)
  · have hall : Fintype.card (Fin n → Fin 4294967296) = (2 ^ 32) ^ n := by
      rw [Fintype.card_fun, Fintype.card_fin, Fintype.card_fin, show (2 : Nat) ^ 32 = 4294967296 from rfl]
    rw [hall] at h
    have hcompl : (univ.filter fun a : Fin n → Fin 4294967296 =>
        (dot s (List.ofFn fun x => BitVec.ofNat 32 (a x).val) + c).toNat + 2 ^ (32 - b) < 2 ^ 32) =
        univ.filter fun a : Fin n → Fin 4294967296 =>
          ¬ (dot s (List.ofFn fun x => BitVec.ofNat 32 (a x).val) + c).toNat / 2 ^ (32 - b) = 2 ^ b - 1 := by
      ext a
      simp only [mem_filter, mem_univ, true_and]
      have h1 := hF a
      generalize (dot s (List.ofFn fun x => BitVec.ofNat 32 (a x).val) + c).toNat = v at *
      have h2 : v / 2 ^ (32 - b) < 2 ^ b - 1 ↔ v < (2 ^ b - 1) * 2 ^ (32 - b) := Nat.div_lt_iff_lt_mul hDpos
      have h3 : (2 ^ b - 1) * 2 ^ (32 - b) + 2 ^ (32 - b) = 2 ^ 32 := by
        rw [hD, ← Nat.succ_mul, Nat.mul_comm]
        congr 1
        omega
      constructor
      · intro hlt
        have := h2.2 (by omega)
        omega
      · intro hne
        have := h2.1 (by omega)
        omega
    have hsum := Finset.card_filter_add_card_filter_not (s := (univ : Finset (Fin n → Fin 4294967296)))
      (fun a => (dot s (List.ofFn fun x => BitVec.ofNat 32 (a x).val) + c).toNat / 2 ^ (32 - b) = 2 ^ b - 1)
    rw [Finset.card_univ, hall] at hsum
    rw [hcompl]
    generalize (univ.filter fun a : Fin n → Fin 4294967296 =>
      (dot s (List.ofFn fun x => BitVec.ofNat 32 (a x).val) + c).toNat / 2 ^ (32 - b) = 2 ^ b - 1).card = A at *
    generalize (univ.filter fun a : Fin n → Fin 4294967296 =>
      ¬ (dot s (List.ofFn fun x => BitVec.ofNat 32 (a x).val) + c).toNat / 2 ^ (32 - b) = 2 ^ b - 1).card = B at *
    generalize ((2 : Nat) ^ 32) ^ n = N at *
    have : (A + B) * 2 ^ b = N * 2 ^ b := by rw [hsum]
    rw [Nat.add_mul, h] at this
    rw [Nat.sub_mul, Nat.one_mul, Nat.mul_comm]
    rw [Nat.mul_comm N, Nat.mul_comm B] at this
    omega
  · intro a a' h
    funext q
    have hq := congrFun h q
    by_cases e : q = ⟨k, hkn⟩
    · rw [e] at hq ⊢
      simp only [Function.update_self, Fin.mk.injEq] at hq
      apply Fin.ext
      have h1 := (a ⟨k, hkn⟩).isLt
      have h2 := (a' ⟨k, hkn⟩).isLt
      omega
    · simpa [Function.update_of_ne e] using hq
  · intro a
    rw [dot_update hsl a ⟨k, hkn⟩ (s[k] * BitVec.ofNat 32 (2 ^ (32 - b)))]
    simp only
    rw [show s[k] * (s[k] * BitVec.ofNat 32 (2 ^ (32 - b))) = (s[k] * s[k]) * BitVec.ofNat 32 (2 ^ (32 - b)) by ring, hunit,
      BitVec.one_mul, show ∀ x y z : U32, x + y + z = x + z + y from fun x y z => by ring]
    generalize dot s (List.ofFn fun x => BitVec.ofNat 32 (a x).val) + c = v
    have hlt : (2 : Nat) ^ (32 - b) < 2 ^ 32 := Nat.pow_lt_pow_right (by omega) (by omega)
    rw [BitVec.toNat_add, BitVec.toNat_ofNat, Nat.mod_eq_of_lt hlt]
    conv_lhs => rw [hD]
    rw [Nat.mod_mul_right_div_self, Nat.add_div_right _ hDpos]

/-- What a masked word is. -/
theorem mask_word {A : List (List U32)} {s e : List U32} {i : Nat} {a : List U32} (ha : A[i]? = some a) (hi : i < e.length) :
    (vadd (A.map fun a => dot s a) e).getD i 0#32 = dot s a + e[i] := by
  unfold vadd
  rw [List.getD_eq_getElem?_getD, List.getElem?_zipWith, List.getElem?_map, ha, List.getElem?_eq_getElem hi]
  rfl

open scoped Classical in
/-- **C110 (how often the ten queries pass).** Fix the database, the secrets (not zero) and noises of the client. If all
noises are in the window, the test passes for exactly a fraction `(1 - 2^-b)^count` of the values of the first `count` rows
of the public matrix; if one is not, it never passes. -/
theorem C110_index_rate (prof : Profile) (prg : Prg) (ent : Nat → U8) (seed : List U8) (tapes : Nat → List U32)
    (m n T b count : Nat) (hb1 : 1 ≤ b) (hb : b ≤ 31) (hm : 0 < m) (h8 : 8 ∣ T) (hT : T < 2 ^ 64) (hdvd : ¬ b ∣ T)
    (hsmall : m * 2 ^ (T % b) ≤ 2 ^ (31 - b)) (hcount : count ≤ m) (s t1 e t2 : Nat → List U32)
    (hs : ∀ i < count, randomTernaryVector n (tapes i) = .ok (s i, t1 i))
    (he : ∀ i < count, randomTernaryVector m (t1 i) = .ok (e i, t2 i)) (hs0 : ∀ i < count, ∃ x ∈ s i, x ≠ 0#32)
    (elems : List (List U8)) (hdec : (testDbEles ent m ((T + 7) / 8)).map b64Decode = elems.map Res.ok) :
    let passes := univ.filter fun rows : Fin count → Fin n → Fin 4294967296 =>
      testIndex prof (withRows prg seed rows) ent seed tapes m n T b count = .ok ()
    ((∀ i < count, ∀ j < width T b, InWindow b (dot (e i) (column b j elems))) →
      passes.card * (2 ^ b) ^ count = (2 ^ b - 1) ^ count * ((2 ^ 32) ^ n) ^ count) ∧
    (¬ (∀ i < count, ∀ j < width T b, InWindow b (dot (e i) (column b j elems))) → passes = ∅) := by
  intro passes
  have hiff := fun rows : Fin count → Fin n → Fin 4294967296 => (C110_index_test prof (withRows prg seed rows) ent seed tapes
    m n T b count hb1 hb hm h8 hT hdvd hsmall hcount s t1 e t2 hs he elems hdec).1
  have hmask : ∀ (rows : Fin count → Fin n → Fin 4294967296) (i : Fin count),
      (vadd ((generateLweMatrixFromSeed (withRows prg seed rows) seed n m).map fun a => dot (s i) a) (e i)).getD i.val 0#32 =
        dot (s i) (List.ofFn fun x => BitVec.ofNat 32 (rows i x).val) +
          (e i)[i.val]'(by rw [(randomTernaryVector_spec (he i i.isLt)).1]; omega) :=
    fun rows i => mask_word (withRows_at prg seed rows hcount i) _
  constructor
  · intro hwin
    have hset : passes = Fintype.piFinset fun i : Fin count => univ.filter fun a : Fin n → Fin 4294967296 =>
        (dot (s i) (List.ofFn fun x => BitVec.ofNat 32 (a x).val) +
          (e i)[i.val]'(by rw [(randomTernaryVector_spec (he i i.isLt)).1]; omega)).toNat + 2 ^ (32 - b) < 2 ^ 32 := by
      ext rows
      simp only [passes, mem_filter, mem_univ, true_and, Fintype.mem_piFinset]
      rw [hiff]
      constructor
      · intro h i
        have := (h i i.isLt).1
        rwa [hmask rows i] at this
      · intro h i hi
        refine ⟨?_, hwin i hi⟩
        have := h ⟨i, hi⟩
        rw [← hmask rows ⟨i, hi⟩] at this
        exact this
    rw [hset, Fintype.card_piFinset]
    have hpow : ∀ x : Nat, x ^ count = ∏ _i : Fin count, x := fun x => by simp
    rw [hpow (2 ^ b), hpow (2 ^ b - 1), hpow ((2 ^ 32) ^ n), ← Finset.prod_mul_distrib, ← Finset.prod_mul_distrib]
    apply Finset.prod_congr rfl
    intro i _
    have hsp := randomTernaryVector_spec (hs i i.isLt)
    exact card_no_overflow hb1 hb hsp.1 hsp.2 (hs0 i i.isLt) _
  · intro hwin
    apply Finset.filter_eq_empty_iff.2
    intro rows _ h
    exact hwin fun i hi => ((hiff rows).1 h i hi).2

open scoped Classical in
/-- **C110 (the test as written).** `client_query_to_server_10_times` has 4096 strings of 256 bits, dimension 512 and 11
plaintext bits. With noise in the window, it fails for more than one in 206 and fewer than one in 205 of the values of the
first ten rows of the public matrix, whatever the (nonzero) secrets and the strings. -/
theorem C110_index_test_is_flaky (prof : Profile) (prg : Prg) (ent : Nat → U8) (seed : List U8) (tapes : Nat → List U32)
    (s t1 e t2 : Nat → List U32) (hs : ∀ i < 10, randomTernaryVector 512 (tapes i) = .ok (s i, t1 i))
    (he : ∀ i < 10, randomTernaryVector 4096 (t1 i) = .ok (e i, t2 i)) (hs0 : ∀ i < 10, ∃ x ∈ s i, x ≠ 0#32)
    (elems : List (List U8)) (hdec : (testDbEles ent 4096 32).map b64Decode = elems.map Res.ok)
    (hwin : ∀ i < 10, ∀ j < 24, InWindow 11 (dot (e i) (column 11 j elems))) :
    let fails := univ.filter fun rows : Fin 10 → Fin 512 → Fin 4294967296 =>
      testIndex prof (withRows prg seed rows) ent seed tapes 4096 512 256 11 10 = .panic
    205 * fails.card < Fintype.card (Fin 10 → Fin 512 → Fin 4294967296) ∧
    Fintype.card (Fin 10 → Fin 512 → Fin 4294967296) < 206 * fails.card := by
  intro fails
  have hw : width 256 11 = 24 := by decide
  have hargs := C110_index_rate prof prg ent seed tapes 4096 512 256 11 10 (by decide) (by decide) (by decide) (by decide)
    (by decide) (by decide) (by decide) (by decide) s t1 e t2 hs he hs0 elems hdec
  have h1 := hargs.1 (by rw [hw]; exact hwin)
  have hfail : fails = univ.filter fun rows : Fin 10 → Fin 512 → Fin 4294967296 =>
      ¬ testIndex prof (withRows prg seed rows) ent seed tapes 4096 512 256 11 10 = .ok () := by
    ext rows
    simp only [fails, mem_filter, mem_univ, true_and]
    have h2 := (C110_index_test prof (withRows prg seed rows) ent seed tapes 4096 512 256 11 10 (by decide) (by decide)
      (by decide) (by decide) (by decide) (by decide) (by decide) (by decide) s t1 e t2 hs he elems hdec).2
    constructor
    · intro h h'; rw [h] at h'; cases h'
    · intro h; exact h2.resolve_left h
  have hsum := Finset.card_filter_add_card_filter_not (s := (univ : Finset (Fin 10 → Fin 512 → Fin 4294967296)))
    (fun rows => testIndex prof (withRows prg seed rows) ent seed tapes 4096 512 256 11 10 = .ok ())
  rw [← hfail, Finset.card_univ] at hsum
  have hall : Fintype.card (Fin 10 → Fin 512 → Fin 4294967296) = ((2 ^ 32) ^ 512) ^ 10 := by
    rw [Fintype.card_fun, Fintype.card_fun, Fintype.card_fin, Fintype.card_fin, Fintype.card_fin,
      show (2 : Nat) ^ 32 = 4294967296 from rfl]
  have hpos : 0 < Fintype.card (Fin 10 → Fin 512 → Fin 4294967296) := Fintype.card_pos
  rw [← hall] at h1
  generalize Fintype.card (Fin 10 → Fin 512 → Fin 4294967296) = N at *
  generalize fails.card = F at *
  generalize (univ.filter fun rows : Fin 10 → Fin 512 → Fin 4294967296 =>
    testIndex prof (withRows prg seed rows) ent seed tapes 4096 512 256 11 10 = .ok ()).card = P at *
  norm_num only at h1
  omega
/-- The words the queries of the test draw: the `i`-th query draws `ts i` for its secret and then the noise `t i`. -/
def Spec.testTapes {count m : Nat} (ts : Nat → List U32) (t : Fin count → Fin m → Fin 4294967293) : Nat → List U32 :=
  fun i => if h : i < count then ts i ++ words (t ⟨i, h⟩) else []

open scoped Classical in
/-- The noise samples for which some noise of some query leaves the window are few. -/
theorem noise_rate_cols {b m T count : Nat} (hb1 : 1 ≤ b) {cols : List (List U32)} (hw : cols.length = width T b)
    (hm : ∀ col ∈ cols, col.length = m ∧ ∀ x ∈ col, x.toNat < 2 ^ b)
    (ev : (Fin m → Fin 4294967293) → List U32) (hev : ∀ t, ∃ rest, randomTernaryVector m (words t) = .ok (ev t, rest)) :
    (1 - count * failureBound m T b) * ((4294967293 ^ m) ^ count : ℝ) ≤
      ((univ.filter fun t : Fin count → Fin m → Fin 4294967293 =>
        ∀ i, ∀ col ∈ cols, InWindow b (dot (ev (t i)) col)).card : ℝ) := by
  have h := columns_rate (m := m) hb1 cols hm
  rw [hw] at h
  set bad := univ.filter fun t : Fin m → Fin 4294967293 => ¬ ∀ col ∈ cols, InWindow b (dot (ev t) col) with hbad
  have hb : (bad.card : ℝ) ≤ failureBound m T b * 4294967293 ^ m := by
    unfold Spec.failureBound
    refine le_trans (Nat.cast_le.2 (Finset.card_le_card ?_)) h
    intro t ht
    simp only [hbad, Finset.mem_filter, Finset.mem_univ, true_and] at ht ⊢
    obtain ⟨rest, hr⟩ := hev t
    push Not at ht
    exact ⟨ev t, rest, hr, ht⟩
  set good := univ.filter fun t : Fin m → Fin 4294967293 => ∀ col ∈ cols, InWindow b (dot (ev t) col) with hgood
  have hset : (univ.filter fun t : Fin count → Fin m → Fin 4294967293 =>
      ∀ i, ∀ col ∈ cols, InWindow b (dot (ev (t i)) col)) = Fintype.piFinset fun _ => good := by
    ext t
    simp only [hgood, mem_filter, mem_univ, true_and, Fintype.mem_piFinset]
  rw [hset, Fintype.card_piFinset, Finset.prod_const, Finset.card_univ, Fintype.card_fin]
  have hsum := Finset.card_filter_add_card_filter_not (s := (univ : Finset (Fin m → Fin 4294967293)))
    (fun t => ∀ col ∈ cols, InWindow b (dot (ev t) col))
  rw [← hgood, ← hbad, Finset.card_univ, Fintype.card_fun, Fintype.card_fin, Fintype.card_fin] at hsum
  have hsum' : (good.card : ℝ) + bad.card = 4294967293 ^ m := by exact_mod_cast hsum
  have hM : (0 : ℝ) < 4294967293 ^ m := by positivity
  have hgle : (1 - failureBound m T b) * 4294967293 ^ m ≤ (good.card : ℝ) := by linarith
  have hg0 : (0 : ℝ) ≤ good.card := Nat.cast_nonneg _
  have hb0 : (0 : ℝ) ≤ bad.card := Nat.cast_nonneg _
  generalize failureBound m T b = x at *
  generalize (4294967293 : ℝ) ^ m = M at *
  have hx0 : 0 ≤ x := by
    by_contra hx
    nlinarith
  push_cast
  by_cases hx1 : x ≤ 1
  · have h1 : 1 - (count : ℝ) * x ≤ (1 - x) ^ count := by
      have := one_add_mul_le_pow (show (-2 : ℝ) ≤ -x by linarith) count
      have e : (1 : ℝ) + -x = 1 - x := by ring
      rw [e] at this
      linarith
    calc (1 - count * x) * M ^ count ≤ (1 - x) ^ count * M ^ count :=
          mul_le_mul_of_nonneg_right h1 (by positivity)
      _ = ((1 - x) * M) ^ count := by rw [mul_pow]
      _ ≤ _ := pow_le_pow_left₀ (mul_nonneg (by linarith) hM.le) hgle _
  · rcases Nat.eq_zero_or_pos count with rfl | hc
    · simp
    · have : (1 : ℝ) ≤ count := by exact_mod_cast hc
      have h1 : 1 - (count : ℝ) * x ≤ 0 := by nlinarith
      exact le_trans (mul_nonpos_of_nonpos_of_nonneg h1 (by positivity)) (by positivity)

open scoped Classical in
theorem noise_rate {b m T count : Nat} (hb1 : 1 ≤ b) (hb : b ≤ 31) {elems : List (List U8)} (hm : elems.length = m)
    (ev : (Fin m → Fin 4294967293) → List U32) (hev : ∀ t, ∃ rest, randomTernaryVector m (words t) = .ok (ev t, rest)) :
    (1 - count * failureBound m T b) * ((4294967293 ^ m) ^ count : ℝ) ≤
      ((univ.filter fun t : Fin count → Fin m → Fin 4294967293 =>
        ∀ i, ∀ j < width T b, InWindow b (dot (ev (t i)) (column b j elems))).card : ℝ) := by
  have h := noise_rate_cols (T := T) (count := count) hb1 (cols := (List.range (width T b)).map fun j => column b j elems)
    (by simp) (by
      intro col hc
      simp only [List.mem_map] at hc
      obtain ⟨j, _, rfl⟩ := hc
      refine ⟨?_, column_lt (by omega) _⟩
      simp [column, hm]) ev hev
  simpa only [List.mem_map, List.mem_range, forall_exists_index, and_imp, forall_apply_eq_imp_iff₂] using h

open scoped Classical in
/-- **C110 (over matrices and noises).** Fix the database and the secrets (not zero). Among all values of the first `count`
rows of the public matrix and all noise samples, the test passes for at most a fraction `(1 - 2^-b)^count`, and for at least
that times `1 - count * failureBound m T b`. -/
theorem C110_index_joint_rate (prof : Profile) (prg : Prg) (ent : Nat → U8) (seed : List U8) (ts s : Nat → List U32)
    (m n T b count : Nat) (hb1 : 1 ≤ b) (hb : b ≤ 31) (hm : 0 < m) (h8 : 8 ∣ T) (hT : T < 2 ^ 64) (hdvd : ¬ b ∣ T)
    (hsmall : m * 2 ^ (T % b) ≤ 2 ^ (31 - b)) (hcount : count ≤ m)
    (hs : ∀ i < count, randomTernaryVector n (ts i) = .ok (s i, [])) (hs0 : ∀ i < count, ∃ x ∈ s i, x ≠ 0#32) :
    let passes := univ.filter fun x : (Fin count → Fin n → Fin 4294967296) × (Fin count → Fin m → Fin 4294967293) =>
      testIndex prof (withRows prg seed x.1) ent seed (testTapes ts x.2) m n T b count = .ok ()
    let total := Fintype.card ((Fin count → Fin n → Fin 4294967296) × (Fin count → Fin m → Fin 4294967293))
    (passes.card : ℝ) ≤ (1 - 1 / 2 ^ b) ^ count * total ∧
    (1 - 1 / 2 ^ b) ^ count * (1 - count * failureBound m T b) * total ≤ (passes.card : ℝ) := by
  intro passes total
  obtain ⟨elems, hstr, hlen, helen⟩ := testDbEles_spec ent m ((T + 7) / 8)
  have hdec : (testDbEles ent m ((T + 7) / 8)).map b64Decode = elems.map Res.ok := by
    rw [hstr, map_decode_encode]
  choose ev hev using fun t : Fin m → Fin 4294967293 =>
    (⟨_, _, words_sampled t⟩ : ∃ e, ∃ rest, randomTernaryVector m (words t) = .ok (e, rest))
  choose rest hev' using hev
  have hrate := fun t : Fin count → Fin m → Fin 4294967293 =>
    C110_index_rate prof prg ent seed (testTapes ts t) m n T b count hb1 hb hm h8 hT hdvd hsmall hcount s
      (fun i => if h : i < count then words (t ⟨i, h⟩) else [])
      (fun i => if h : i < count then ev (t ⟨i, h⟩) else []) (fun i => if h : i < count then rest (t ⟨i, h⟩) else [])
      (fun i hi => by
        simp only [Spec.testTapes, dif_pos hi]
        exact randomTernaryVector_append (hs i hi))
      (fun i hi => by simp only [dif_pos hi]; exact hev' _) hs0 elems hdec
  set good := univ.filter fun t : Fin count → Fin m → Fin 4294967293 =>
        ∀ i, ∀ j < width T b, InWindow b (dot (ev (t i)) (column b j elems)) with hgood
  have hwin : ∀ t : Fin count → Fin m → Fin 4294967293,
      (∀ i < count, ∀ j < width T b, InWindow b (dot (if h : i < count then ev (t ⟨i, h⟩) else []) (column b j elems))) ↔
        t ∈ good := by
    intro t
    simp only [hgood, mem_filter, mem_univ, true_and]
    constructor
    · intro h i j hj
      have := h i i.isLt j hj
      rwa [dif_pos i.isLt] at this
    · intro h i hi j hj
      rw [dif_pos hi]
      exact h ⟨i, hi⟩ j hj
  have hcard : passes.card = ∑ t : Fin count → Fin m → Fin 4294967293, (univ.filter fun rows : Fin count → Fin n → Fin 4294967296 =>
      testIndex prof (withRows prg seed rows) ent seed (testTapes ts t) m n T b count = .ok ()).card := by
    rw [Finset.card_eq_sum_card_fiberwise (f := Prod.snd) (t := univ) (by intro x _; simp)]
    apply Finset.sum_congr rfl
    intro t _
    apply Finset.card_bij (fun x _ => x.1)
    · intro x hx
      simp only [passes, mem_filter, mem_univ, true_and] at hx ⊢
      rw [← hx.2]; exact hx.1
    · intro x hx y hy h
      simp only [passes, mem_filter, mem_univ, true_and] at hx hy
      exact Prod.ext h (by rw [hx.2, hy.2])
    · intro rows hr
      simp only [passes, mem_filter, mem_univ, true_and] at hr ⊢
      exact ⟨(rows, t), ⟨hr, rfl⟩, rfl⟩
  have hP : passes.card * (2 ^ b) ^ count = good.card * ((2 ^ b - 1) ^ count * ((2 ^ 32) ^ n) ^ count) := by
    rw [hcard, Finset.sum_mul, Finset.card_eq_sum_ones, Finset.sum_mul, Finset.sum_filter]
    apply Finset.sum_congr rfl
    intro t _
    have hr := hrate t
    rw [hwin t] at hr
    by_cases hg : ∀ i, ∀ j < width T b, InWindow b (dot (ev (t i)) (column b j elems))
    · rw [if_pos hg, Nat.one_mul]
      exact hr.1 (by simp only [hgood, mem_filter, mem_univ, true_and]; exact hg)
    · rw [if_neg hg]
      have := hr.2 (by simp only [hgood, mem_filter, mem_univ, true_and]; exact hg)
      rw [this]
      simp
  have hgle : good.card ≤ (4294967293 ^ m) ^ count := by
    have := Finset.card_le_univ good
    rwa [Fintype.card_fun, Fintype.card_fun, Fintype.card_fin, Fintype.card_fin, Fintype.card_fin] at this
  have hgge := noise_rate (T := T) (count := count) hb1 hb hlen ev (fun t => ⟨_, hev' t⟩)
  rw [← hgood] at hgge
  have htot : total = ((2 ^ 32) ^ n) ^ count * (4294967293 ^ m) ^ count := by
    simp only [total, Fintype.card_prod, Fintype.card_fun, Fintype.card_fin]
    rw [show (2 : Nat) ^ 32 = 4294967296 from rfl]
  have hP' : (passes.card : ℝ) = (1 - 1 / 2 ^ b) ^ count * (good.card * (((2 ^ 32) ^ n) ^ count : ℕ)) := by
    have h2 : ((2 : ℝ) ^ b) ≠ 0 := by positivity
    have h3 : (1 - 1 / (2 : ℝ) ^ b) ^ count = ((2 ^ b - 1 : ℕ) : ℝ) ^ count / (2 ^ b) ^ count := by
      rw [← div_pow]
      congr 1
      rw [Nat.cast_sub Nat.one_le_two_pow]
      push_cast
      field_simp
    rw [h3, div_mul_eq_mul_div, eq_div_iff (by positivity)]
    have := congrArg (Nat.cast (R := ℝ)) hP
    rw [Nat.cast_mul, Nat.cast_mul, Nat.cast_mul, Nat.cast_pow, Nat.cast_pow (2 ^ b - 1)] at this
    rw [Nat.cast_pow (2 : ℕ) b] at this
    rw [show ((2 : ℕ) : ℝ) = 2 from rfl] at this
    rw [this]
    ring
  have hp0 : (0 : ℝ) ≤ (1 - 1 / 2 ^ b) ^ count := by
    apply pow_nonneg
    rw [sub_nonneg, div_le_one (by positivity)]
    exact one_le_pow₀ (by norm_num)
  rw [hP', htot, Nat.cast_mul]
  generalize ((2 ^ 32) ^ n) ^ count = N
  generalize ((1 : ℝ) - 1 / 2 ^ b) ^ count = p at *
  have hg1 : (good.card : ℝ) ≤ (((4294967293 ^ m) ^ count : ℕ) : ℝ) := Nat.cast_le.2 hgle
  have hg2 : (1 - count * failureBound m T b) * (((4294967293 ^ m) ^ count : ℕ) : ℝ) ≤ good.card := by
    rw [Nat.cast_pow, Nat.cast_pow]
    exact hgge
  generalize (((4294967293 ^ m) ^ count : ℕ) : ℝ) = M at *
  have hN0 : (0 : ℝ) ≤ N := Nat.cast_nonneg _
  constructor
  · apply mul_le_mul_of_nonneg_left _ hp0
    rw [mul_comm (N : ℝ)]
    exact mul_le_mul_of_nonneg_right hg1 hN0
  · rw [mul_assoc]
    apply mul_le_mul_of_nonneg_left _ hp0
    rw [mul_comm (N : ℝ), ← mul_assoc]
    exact mul_le_mul_of_nonneg_right hg2 hN0

open scoped Classical in
/-- **C110 (the test as written, over matrices and noises).** Whatever the database and the (nonzero) secrets,
`client_query_to_server_10_times` fails for more than one in 206 and fewer than one in 205 of the values of the ten rows it
queries and of the noise samples. -/
theorem C110_index_test_fails (prof : Profile) (prg : Prg) (ent : Nat → U8) (seed : List U8) (ts s : Nat → List U32)
    (hs : ∀ i < 10, randomTernaryVector 512 (ts i) = .ok (s i, [])) (hs0 : ∀ i < 10, ∃ x ∈ s i, x ≠ 0#32) :
    let fails := univ.filter fun x : (Fin 10 → Fin 512 → Fin 4294967296) × (Fin 10 → Fin 4096 → Fin 4294967293) =>
      ¬ testIndex prof (withRows prg seed x.1) ent seed (testTapes ts x.2) 4096 512 256 11 10 = .ok ()
    let total := Fintype.card ((Fin 10 → Fin 512 → Fin 4294967296) × (Fin 10 → Fin 4096 → Fin 4294967293))
    205 * fails.card < total ∧ total < 206 * fails.card := by
  intro fails total
  have h := C110_index_joint_rate prof prg ent seed ts s 4096 512 256 11 10 (by decide) (by decide) (by decide) (by decide)
    (by decide) (by decide) (by decide) (by decide) hs hs0
  have hf : failureBound 4096 256 11 < 1 / 2 ^ 63 :=
    failureBound_lt 24 48 (by decide) (by norm_num) (by norm_num) (by norm_num) (by norm_num)
  have hpos : 0 < total := Fintype.card_pos
  have hsum := Finset.card_filter_add_card_filter_not
    (s := (univ : Finset ((Fin 10 → Fin 512 → Fin 4294967296) × (Fin 10 → Fin 4096 → Fin 4294967293))))
    (fun x => testIndex prof (withRows prg seed x.1) ent seed (testTapes ts x.2) 4096 512 256 11 10 = .ok ())
  rw [Finset.card_univ] at hsum
  change _ + fails.card = total at hsum
  change _ ≤ _ * (total : ℝ) ∧ _ * (total : ℝ) ≤ _ at h
  generalize failureBound 4096 256 11 = x at *
  generalize (univ.filter fun x : (Fin 10 → Fin 512 → Fin 4294967296) × (Fin 10 → Fin 4096 → Fin 4294967293) =>
    testIndex prof (withRows prg seed x.1) ent seed (testTapes ts x.2) 4096 512 256 11 10 = .ok ()).card = P at *
  generalize fails.card = F at *
  generalize total = N at *
  have hsum' : (P : ℝ) + F = N := by exact_mod_cast hsum
  have hpos' : (0 : ℝ) < N := by exact_mod_cast hpos
  obtain ⟨h1, h2⟩ := h
  have h3 : (1 - 1 / 2 ^ 11 : ℝ) ^ 10 * (1 - 10 / 2 ^ 63) * N ≤ P := by
    refine le_trans ?_ h2
    apply mul_le_mul_of_nonneg_right _ hpos'.le
    apply mul_le_mul_of_nonneg_left _ (by norm_num)
    push_cast
    linarith
  norm_num only at h1 h3
  constructor
  · have : (205 * F : ℝ) < N := by linarith
    exact_mod_cast this
  · have : (N : ℝ) < 206 * F := by linarith
    exact_mod_cast this
/-- **C110 (reusing parameters).** `client_query_to_server_attempt_params_reuse` passes iff the addition does not overflow for
its one query; otherwise it panics. -/
theorem C110_reuse_test (prof : Profile) (prg : Prg) (ent : Nat → U8) (seed : List U8) (tape : List U32) (m n T b : Nat)
    (hb1 : 1 ≤ b) (hb : b ≤ 31) (hm : 0 < m) (s t1 e t2 : List U32)
    (hs : randomTernaryVector n tape = .ok (s, t1)) (he : randomTernaryVector m t1 = .ok (e, t2)) :
    let run := testReuse prof prg ent seed tape m n T b
    (run = .ok () ↔ ((vadd ((generateLweMatrixFromSeed prg seed n m).map fun a => dot s a) e).getD 0 0#32).toNat +
      2 ^ (32 - b) < 2 ^ 32) ∧ (run = .ok () ∨ run = .panic) := by
  intro run
  obtain ⟨elems, hstr, hlen, helen⟩ := testDbEles_spec ent m ((T + 7) / 8)
  have hbuild : Shard.fromBase64Strings prof prg seed (testDbEles ent m ((T + 7) / 8)) n m T b =
      .ok (shardOf prg seed elems n m T b) := by
    rw [hstr]
    refine shard_ok (map_decode_encode elems) hb1 (by omega) hm (by omega) fun x hx => ?_
    have h2 : (width T b - 1) * b ≤ T := width_mul_le (by omega)
    have := helen x (List.mem_of_mem_take hx)
    omega
  obtain ⟨qp, hqp, hl, hr, hu, hbits, hsize, hmask⟩ := shard_params (T := T) (b := b) prg seed elems hs he
  have hil : 0 < qp.lhs.length := by omega
  have hused : (({ qp with used := true } : QueryParams Unit).generateIndexQuery prof 0).2.returnedErr = .ok true := rfl
  have hrun : run = (qp.generateIndexQuery prof 0).2.returnedOk >>= fun ok => assertTrue ok := by
    show testReuse _ _ _ _ _ _ _ _ _ = _
    unfold testReuse
    simp only [hbuild, Res.unwrap_ok, Res.bind_ok, show (shardOf prg seed elems n m T b).baseParams.publicSeed = seed from rfl,
      show (shardOf prg seed elems n m T b).baseParams.dim = n from rfl,
      show (shardOf prg seed elems n m T b).baseParams.m = m from rfl, hqp]
    rw [indexQuery_fresh hu]
    simp only [hused, Res.bind_ok]
    cases (indexQueryBody prof qp 0).returnedOk with
    | ok v => cases v <;> rfl
    | err e => rfl
    | panic => rfl
    | diverge => rfl
  have hout := C06_index_query_outcome prof qp 0 (by omega) (by omega) hu hil
  rw [hbits, ← getD_lt hil, hmask] at hout
  by_cases hov : ((vadd ((generateLweMatrixFromSeed prg seed n m).map fun a => dot s a) e).getD 0 0#32).toNat +
      2 ^ (32 - b) < 2 ^ 32
  · rw [hrun, hout.2.1 hov]
    exact ⟨⟨fun _ => hov, fun _ => rfl⟩, .inl rfl⟩
  · rw [hrun, hout.2.2 (Nat.le_of_not_lt hov)]
    exact ⟨⟨fun h => (by cases h), fun h => absurd h hov⟩, .inr rfl⟩

open scoped Classical in
/-- **C110 (how often the reuse test fails).** For every database, nonzero secret and noise, the test fails for exactly one in
`2^b` values of the first row of the public matrix: with the 10 bits of the test, one run in 1024. -/
theorem C110_reuse_rate (prof : Profile) (prg : Prg) (ent : Nat → U8) (seed : List U8) (tape : List U32) (m n T b : Nat)
    (hb1 : 1 ≤ b) (hb : b ≤ 31) (hm : 0 < m) (s t1 e t2 : List U32)
    (hs : randomTernaryVector n tape = .ok (s, t1)) (he : randomTernaryVector m t1 = .ok (e, t2))
    (hs0 : ∃ x ∈ s, x ≠ 0#32) :
    (univ.filter fun rows : Fin 1 → Fin n → Fin 4294967296 =>
      testReuse prof (withRows prg seed rows) ent seed tape m n T b = .panic).card * 2 ^ b = (2 ^ 32) ^ n := by
  have hsp := randomTernaryVector_spec hs
  have hep := randomTernaryVector_spec he
  have h0 : 0 < e.length := by omega
  have hcard := card_no_overflow hb1 hb hsp.1 hsp.2 hs0 e[0]
  have hsum := Finset.card_filter_add_card_filter_not (s := (univ : Finset (Fin 1 → Fin n → Fin 4294967296)))
    (fun rows => testReuse prof (withRows prg seed rows) ent seed tape m n T b = .ok ())
  have hneg : (univ.filter fun rows : Fin 1 → Fin n → Fin 4294967296 =>
      testReuse prof (withRows prg seed rows) ent seed tape m n T b = .panic) = univ.filter fun rows =>
        ¬ testReuse prof (withRows prg seed rows) ent seed tape m n T b = .ok () := by
    ext rows
    simp only [mem_filter, mem_univ, true_and]
    have h2 := (C110_reuse_test prof (withRows prg seed rows) ent seed tape m n T b hb1 hb hm s t1 e t2 hs he).2
    constructor
    · intro h h'; rw [h] at h'; cases h'
    · intro h; exact h2.resolve_left h
  have hpos : (univ.filter fun rows : Fin 1 → Fin n → Fin 4294967296 =>
      testReuse prof (withRows prg seed rows) ent seed tape m n T b = .ok ()).card =
      (univ.filter fun a : Fin n → Fin 4294967296 =>
        (dot s (List.ofFn fun x => BitVec.ofNat 32 (a x).val) + e[0]).toNat + 2 ^ (32 - b) < 2 ^ 32).card := by
    have hiff : ∀ rows : Fin 1 → Fin n → Fin 4294967296,
        testReuse prof (withRows prg seed rows) ent seed tape m n T b = .ok () ↔
        (dot s (List.ofFn fun x => BitVec.ofNat 32 (rows 0 x).val) + e[0]).toNat + 2 ^ (32 - b) < 2 ^ 32 := by
      intro rows
      rw [(C110_reuse_test prof (withRows prg seed rows) ent seed tape m n T b hb1 hb hm s t1 e t2 hs he).1,
        show (vadd (List.map (fun a => dot s a) (generateLweMatrixFromSeed (withRows prg seed rows) seed n m)) e).getD 0 0#32 =
          dot s (List.ofFn fun x => BitVec.ofNat 32 (rows 0 x).val) + e[0] from
          mask_word (withRows_at prg seed rows (by omega) 0) h0]
    apply Finset.card_bij (fun rows _ => rows 0)
    · intro rows h
      simp only [mem_filter, mem_univ, true_and] at h ⊢
      exact (hiff rows).1 h
    · intro r _ r' _ h
      funext i
      rw [Fin.fin_one_eq_zero i]
      exact h
    · intro a h
      refine ⟨fun _ => a, ?_, rfl⟩
      simp only [mem_filter, mem_univ, true_and] at h ⊢
      exact (hiff _).2 h
  rw [Finset.card_univ, Fintype.card_fun, Fintype.card_fun, Fintype.card_fin, Fintype.card_fin, Fintype.card_fin, pow_one] at hsum
  replace hsum := hsum.trans (show 4294967296 ^ n = (2 ^ 32) ^ n by rw [show (2 : Nat) ^ 32 = 4294967296 from rfl])
  rw [hneg]
  rw [← hpos] at hcard
  generalize (univ.filter fun rows : Fin 1 → Fin n → Fin 4294967296 =>
    testReuse prof (withRows prg seed rows) ent seed tape m n T b = .ok ()).card = P at *
  generalize (univ.filter fun rows : Fin 1 → Fin n → Fin 4294967296 =>
    ¬ testReuse prof (withRows prg seed rows) ent seed tape m n T b = .ok ()).card = F at *
  generalize ((2 : Nat) ^ 32) ^ n = N at *
  rw [← hsum] at hcard ⊢
  have := Nat.two_pow_pos b
  obtain ⟨q, hq⟩ : ∃ q, 2 ^ b = q + 1 := ⟨2 ^ b - 1, by omega⟩
  rw [hq] at hcard ⊢
  rw [Nat.add_sub_cancel] at hcard
  nlinarith
end Chalamet
