import Verif.Props.Trust

/-!
# C103: a client that shows a parsed row can show its secret, and with it the index it asked for

The published columns are used to decrypt, and are not checked: a server can publish columns whose "decryption" is the secret
vector itself. The public matrix can be an honest one.
-/

namespace Chalamet
open Spec

/-! ## Specification -/

/-- The columns published by the attacker: column `j` is `2^(32-b)` at position `j` and zero elsewhere. -/
def Spec.trapColumns (b n : Nat) : List (List U32) :=
  (List.range n).map fun j => (List.replicate n 0#32).set j (BitVec.ofNat 32 (2 ^ (32 - b)))

/-- The secret as the attacker reads it off a parsed row: digit `0` for `0`, `1` for `-1`, anything else for `1`. -/
def Spec.readSecret (row : List U32) : List U32 :=
  row.map fun x => if x = 0#32 then 0#32 else if x = 1#32 then BitVec.allOnes 32 else 1#32

instance (x : U32) : Decidable (IsTernary x) := inferInstanceAs (Decidable (_ ∨ _ ∨ _))

/-- The index as the attacker reads it off a query once the secret is known: the first position where the query minus `s·A` is
not ternary. -/
def Spec.readIndex (cp : List (List U32)) (s q : List U32) : Option Nat :=
  (List.range cp.length).find? fun j => ¬ IsTernary (q.getD j 0#32 - dot s (cp.getD j []))

/-! ## Proofs -/

theorem dot_trap {b n j : Nat} {s : List U32} (hs : s.length = n) (hj : j < n) :
    dot s ((List.replicate n 0#32).set j (BitVec.ofNat 32 (2 ^ (32 - b)))) = BitVec.ofNat 32 (2 ^ (32 - b)) * s.getD j 0#32 := by
  rw [dot_comm, ← dot_unit hs hj, ← dot_scale]
  congr 1
  rw [List.map_set, List.map_replicate, BitVec.mul_zero, BitVec.mul_one]

theorem find?_first {α : Type} {p : α → Bool} {l₁ l₂ : List α} {a : α} (h : ∀ x ∈ l₁, p x = false) (ha : p a = true) :
    (l₁ ++ a :: l₂).find? p = some a := by
  rw [List.find?_append, List.find?_eq_none.2 (by simpa using h), List.find?_cons, ha]
  rfl

theorem readSecret_digit {b : Nat} (hb : 2 ≤ b) (hb' : b ≤ 31) {x : U32} (hx : IsTernary x) :
    (let y := BitVec.ofNat 32 ((-x).toNat % 2 ^ b)
      if y = 0#32 then 0#32 else if y = 1#32 then BitVec.allOnes 32 else 1#32) = x := by
  have h4 : 2 ^ 2 ≤ 2 ^ b := Nat.pow_le_pow_right (by omega) hb
  have h32 : 2 ^ b ≤ 2 ^ 31 := Nat.pow_le_pow_right (by omega) hb'
  rcases hx with rfl | rfl | rfl
  · simp
  · have e : (-(1#32)).toNat = 2 ^ 32 - 1 := by decide
    have hm : (2 ^ 32 - 1) % 2 ^ b = 2 ^ b - 1 := by
      obtain ⟨k, hk⟩ : 2 ^ b ∣ 2 ^ 32 := Nat.pow_dvd_pow 2 (by omega)
      have hk0 : 0 < k := by
        rcases Nat.eq_zero_or_pos k with rfl | h
        · simp at hk
        · exact h
      have : 2 ^ 32 - 1 = (2 ^ b - 1) + 2 ^ b * (k - 1) := by
        rw [hk, Nat.mul_sub]
        have : 2 ^ b ≤ 2 ^ b * k := Nat.le_mul_of_pos_right _ hk0
        omega
      rw [this, Nat.add_mul_mod_self_left, Nat.mod_eq_of_lt (by omega)]
    have n0 : BitVec.ofNat 32 (2 ^ b - 1) ≠ 0#32 := by
      intro h
      have := congrArg BitVec.toNat h
      rw [BitVec.toNat_ofNat, Nat.mod_eq_of_lt (by omega)] at this
      simp at this
      omega
    have n1 : BitVec.ofNat 32 (2 ^ b - 1) ≠ 1#32 := by
      intro h
      have := congrArg BitVec.toNat h
      rw [BitVec.toNat_ofNat, Nat.mod_eq_of_lt (by omega)] at this
      simp at this
      omega
    simp only [e, hm, n0, n1, if_false]
  · have e : (-(BitVec.allOnes 32)).toNat = 1 := by decide
    rw [e, Nat.mod_eq_of_lt (by omega)]
    decide

/-- **C103 (the row shows the secret).** Take any public matrix (honest or not), digits of 2 to 31 bits, and published columns of
the attacker's making. Whatever the client's randomness: its parameters come out as usual, and the row it parses from a response
of zeros is its secret vector, with `-1` for `1`. -/
theorem C103_row_shows_secret (prof : Profile) (cp : List (List U32)) (params : IndexParams) (tape tape' : List U32)
    (qp : QueryParams Unit) (hb2 : 2 ≤ params.plaintextBits) (hb : params.plaintextBits ≤ 31)
    (hw : width params.elemSize params.plaintextBits = params.dim)
    (htrap : params.rhs = trapColumns params.plaintextBits params.dim)
    (hqp : generateIndexQueryParams cp params tape = .ok (qp, tape')) :
    ∃ s t1 e row, randomTernaryVector params.dim tape = .ok (s, t1) ∧ randomTernaryVector cp.length t1 = .ok (e, tape') ∧
      qp.lhs = vadd (cp.map fun a => dot s a) e ∧
      qp.parseIndexRow prof (List.replicate params.dim 0#32) = .ok row ∧ readSecret row = s := by
  unfold generateIndexQueryParams at hqp
  obtain ⟨⟨s, t1⟩, hs, hqp⟩ := Res.bind_eq_ok.1 hqp
  obtain ⟨⟨lhs, t2⟩, hm, hqp⟩ := Res.bind_eq_ok.1 hqp
  obtain ⟨r, hr, hqp⟩ := Res.bind_eq_ok.1 hqp
  simp only [Res.ok.injEq, Prod.mk.injEq] at hqp
  obtain ⟨rfl, rfl⟩ := hqp
  obtain ⟨_, e, he, hlhs⟩ := multLeft_spec.1 hm
  obtain ⟨hsl, hst⟩ := randomTernaryVector_spec hs
  have hr2 := (multRight_eq_ok.1 hr).2
  have hrj : ∀ j < params.dim, r.getD j 0#32 = BitVec.ofNat 32 (2 ^ (32 - params.plaintextBits)) * s.getD j 0#32 := by
    intro j hj
    rw [← dot_trap hsl hj, hr2, htrap, getD_lt (by simpa [trapColumns] using hj)]
    simp [trapColumns]
  have hrl : r.length = params.dim := by rw [hr2, htrap]; simp [trapColumns]
  refine ⟨s, t1, e, _, hs, he, hlhs, parseIndexRow_val (y := fun j => -(s.getD j 0#32)) (nu := fun _ => 0#32)
    (b := params.plaintextBits) (w := params.dim) (by omega) hb rfl hw hrl ?_, ?_⟩
  · apply List.ext_getElem
    · simp
    · intro j h1 h2
      have hj : j < params.dim := by simpa using h1
      simp only [List.getElem_replicate, List.getElem_map, List.getElem_range]
      rw [hrj j hj, BitVec.add_zero, BitVec.mul_neg, BitVec.add_left_neg]
  · unfold readSecret
    apply List.ext_getElem
    · simp [hsl]
    · intro j h1 h2
      simp only [List.getElem_map, List.getElem_range]
      have hc : carry params.plaintextBits 0#32 = 0 := by simp [carry]
      rw [hc, Nat.add_zero, getD_lt h2]
      exact readSecret_digit hb2 hb (hst _ (List.getElem_mem h2))

/-- **C103 (the secret shows the index).** Digits of 1 to 30 bits. A query and the secret of its parameters determine the index. -/
theorem C103_secret_shows_index (prof : Profile) (cp : List (List U32)) (params : IndexParams) (tape tape' s t1 : List U32)
    (qp : QueryParams Unit) (i : Nat) (q : List U32) (hb1 : 1 ≤ params.plaintextBits) (hb : params.plaintextBits ≤ 30)
    (hs : randomTernaryVector params.dim tape = .ok (s, t1))
    (hqp : generateIndexQueryParams cp params tape = .ok (qp, tape'))
    (hq : (qp.generateIndexQuery prof i).2 = .ok q) :
    readIndex cp s q = some i := by
  unfold generateIndexQueryParams at hqp
  obtain ⟨⟨s', t1'⟩, hs', hqp⟩ := Res.bind_eq_ok.1 hqp
  rw [hs] at hs'
  cases hs'
  obtain ⟨⟨lhs, t2⟩, hm, hqp⟩ := Res.bind_eq_ok.1 hqp
  obtain ⟨r, hr, hqp⟩ := Res.bind_eq_ok.1 hqp
  simp only [Res.ok.injEq, Prod.mk.injEq] at hqp
  obtain ⟨rfl, rfl⟩ := hqp
  obtain ⟨_, e, he, hlhs⟩ := multLeft_spec.1 hm
  obtain ⟨hel, het⟩ := randomTernaryVector_spec he
  have hll : lhs.length = cp.length := by rw [hlhs]; simp [vadd, hel]
  have hi : i < lhs.length := by
    by_contra hcon
    rw [C06_out_of_range prof _ i (by dsimp only; omega) rfl (by simpa using hcon)] at hq
    cases hq
  obtain ⟨_, hok, herr⟩ := C06_index_query_outcome prof
    { lhs := lhs, rhs := r, elemSize := params.elemSize, plaintextBits := params.plaintextBits, extraParams := none,
      used := false } i hb1 (by dsimp only; omega) rfl hi
  dsimp only at hok herr
  have hov : lhs[i].toNat + 2 ^ (32 - params.plaintextBits) < 2 ^ 32 := by
    by_contra hcon
    rw [herr (by omega)] at hq
    cases hq
  rw [hok hov] at hq
  simp only [Res.ok.injEq] at hq
  have hj : ∀ j (h : j < cp.length), lhs.getD j 0#32 - dot s (cp.getD j []) = e[j]'(by omega) := by
    intro j h
    have h1 : lhs.getD j 0#32 = dot s cp[j] + e[j]'(by omega) := by
      rw [getD_lt (by omega)]
      simp only [hlhs]
      rw [vadd_getElem j (by simp [vadd, hel, h]) (by simpa using h) (by omega), List.getElem_map]
    rw [h1, getD_lt h, BitVec.add_comm, BitVec.add_sub_cancel]
  have hsplit : List.range cp.length = List.range i ++ i :: (List.range (cp.length - i - 1)).map (i + 1 + ·) := by
    conv_lhs => rw [show cp.length = i + 1 + (cp.length - i - 1) by omega, List.range_add, List.range_succ, List.append_assoc]
    rfl
  unfold readIndex
  rw [hsplit]
  apply find?_first
  · intro j hjm
    have hji : j < i := List.mem_range.1 hjm
    have : q.getD j 0#32 = lhs.getD j 0#32 := by
      rw [← hq]
      simp only [List.getD_eq_getElem?_getD]
      rw [List.getElem?_set_ne (by omega)]
    rw [this, hj j (by omega)]
    have ht : IsTernary (e[j]'(by omega)) := het _ (List.getElem_mem _)
    simp [ht]
  · have hqi : q.getD i 0#32 = lhs.getD i 0#32 + BitVec.ofNat 32 (2 ^ (32 - params.plaintextBits)) := by
      rw [← hq, getD_lt (by simpa using hi), List.getElem_set_self, getD_lt hi]
    have hD : 2 ^ 2 ≤ 2 ^ (32 - params.plaintextBits) := Nat.pow_le_pow_right (by omega) (by omega)
    have hD' : 2 ^ (32 - params.plaintextBits) ≤ 2 ^ 31 := Nat.pow_le_pow_right (by omega) (by omega)
    have hval : q.getD i 0#32 - dot s (cp.getD i []) = e[i]'(by omega) + BitVec.ofNat 32 (2 ^ (32 - params.plaintextBits)) := by
      rw [← hj i (by omega), hqi, BitVec.sub_eq_add_neg, BitVec.sub_eq_add_neg, BitVec.add_assoc, BitVec.add_assoc,
        BitVec.add_comm (BitVec.ofNat 32 _)]
    have ht : IsTernary (e[i]'(by omega)) := het _ (List.getElem_mem _)
    have hv : (e[i]'(by omega) + BitVec.ofNat 32 (2 ^ (32 - params.plaintextBits))).toNat =
        ((e[i]'(by omega)).toNat + 2 ^ (32 - params.plaintextBits)) % 2 ^ 32 := by
      rw [BitVec.toNat_add, BitVec.toNat_ofNat, Nat.mod_eq_of_lt (a := 2 ^ (32 - params.plaintextBits)) (by omega)]
    have hn : ¬ IsTernary (e[i]'(by omega) + BitVec.ofNat 32 (2 ^ (32 - params.plaintextBits))) := by
      have := ternary_toNat ht
      apply not_ternary_of <;> rw [hv] <;> omega
    rw [hval]
    simp [hn]

/-- **C103 (a shown row shows the index).** Both together: the attacker computes the index from the query and the row parsed from its
response of zeros, for every public matrix. -/
theorem C103_row_shows_index (prof : Profile) (cp : List (List U32)) (params : IndexParams) (tape tape' : List U32)
    (qp qp' : QueryParams Unit) (i : Nat) (q : List U32) (hb2 : 2 ≤ params.plaintextBits) (hb : params.plaintextBits ≤ 30)
    (hw : width params.elemSize params.plaintextBits = params.dim)
    (htrap : params.rhs = trapColumns params.plaintextBits params.dim)
    (hqp : generateIndexQueryParams cp params tape = .ok (qp, tape')) (hq : qp.generateIndexQuery prof i = (qp', .ok q)) :
    ∃ row, qp'.parseIndexRow prof (List.replicate params.dim 0#32) = .ok row ∧ readIndex cp (readSecret row) q = some i := by
  obtain ⟨s, t1, e, row, hs, -, -, hrow, hsec⟩ := C103_row_shows_secret prof cp params tape tape' qp hb2 (by omega) hw htrap hqp
  refine ⟨row, ?_, ?_⟩
  · have : qp' = { qp with used := true } := by
      have := (C05_single_use_index prof qp i []).2.2.2
      simpa [indexHistory, hq] using this
    rw [this]
    exact hrow
  · rw [hsec]
    exact C103_secret_shows_index prof cp params tape tape' s t1 qp i q (by omega) hb hs hqp (by rw [hq])

/-- Non-vacuity: an attacker's parameters of dimension two for three rows, a client that asks for row 1. -/
example :
    let cp := [[7#32, 9#32], [1000#32, 4294967291#32], [123456#32, 77#32]]
    let params : IndexParams := ⟨2, 3, [], trapColumns 8 2, 16, 8⟩
    let tape := [5#32, 4000000000#32, 1431655765#32, 0#32, 4000000000#32]
    ∃ qp qp' q, generateIndexQueryParams cp params tape = .ok (qp, []) ∧ q.length = 3 ∧ width params.elemSize params.plaintextBits = params.dim ∧
      qp.generateIndexQuery .debug 1 = (qp', .ok q) ∧ qp'.parseIndexRow .debug [0#32, 0#32] = .ok [0#32, 1#32] ∧
      readIndex cp (readSecret [0#32, 1#32]) q = some 1 := by
  refine ⟨⟨[4294967288#32, 5#32, 4294967218#32], [0#32, 4278190080#32], 16, 8, none, false⟩,
    ⟨[4294967288#32, 5#32, 4294967218#32], [0#32, 4278190080#32], 16, 8, none, true⟩,
    [4294967288#32, 16777221#32, 4294967218#32], by decide, by decide, by decide, by decide, by decide, by decide⟩

end Chalamet
