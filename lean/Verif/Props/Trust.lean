import Verif.Props.Reveal

/-!
# C94: what the client trusts the published parameters for

The client takes the public matrix (or the seed and dimension it is derived from) as it comes: it checks lengths only (C25). A
matrix with zero columns, or an LWE dimension of `0`, is accepted and makes the query reveal the index, or the key's three
slots, to anybody who sees it: masks of zero columns are a single ternary error.
-/

namespace Chalamet

open Spec

theorem vadd_getElem {u v : List U32} (j : Nat) (h : j < (vadd u v).length) (hu : j < u.length) (hv : j < v.length) :
    (vadd u v)[j] = u[j] + v[j] := by
  simp [vadd]

theorem dot_zero_right {s a : List U32} (h : ∀ x ∈ a, x = 0#32) : dot s a = 0#32 := by
  rw [List.eq_replicate_of_mem h, dot_comm, dot_zeros]

/-- The mask has one word per column of the public matrix; the word of a zero column is ternary. -/
theorem mask_of_zero {s : List U32} {cp : List (List U32)} {tape tape' lhs : List U32}
    (h : multLeft s cp tape = .ok (lhs, tape')) :
    lhs.length = cp.length ∧
      ∀ j (h1 : j < cp.length) (h2 : j < lhs.length), (∀ x ∈ cp[j], x = 0#32) → IsTernary lhs[j] := by
  obtain ⟨_, e, he, rfl⟩ := multLeft_spec.1 h
  obtain ⟨hel, het⟩ := randomTernaryVector_spec he
  refine ⟨by simp [vadd, hel], ?_⟩
  intro j h1 h2 hz
  rw [vadd_getElem j h2 (by simpa using h1) (by omega), List.getElem_map, dot_zero_right hz, BitVec.zero_add]
  exact het _ (List.getElem_mem _)

theorem not_ternary_of {x : U32} (h2 : 2 ≤ x.toNat) (h3 : x.toNat ≤ 2 ^ 32 - 2) : ¬ IsTernary x := by
  rintro (h | h | h)
  · rw [h] at h2; simp at h2
  · rw [h] at h2; simp at h2
  · rw [h] at h3; simp at h3

theorem ternary_toNat {x : U32} (h : IsTernary x) : x.toNat = 0 ∨ x.toNat = 1 ∨ x.toNat = 2 ^ 32 - 1 := by
  rcases h with h | h | h <;> rw [h] <;> simp

/-- **C94 (index).** Whatever parameters a client accepted, at every position whose public column is zero its query shows in the
clear whether that position is the queried one: the word there is `0`, `1` or `-1` exactly when it is not. -/
theorem C94_zero_columns_reveal_the_index (prof : Profile) (cp : List (List U32)) (params : IndexParams)
    (tape tape' : List U32) (qp : QueryParams Unit) (i : Nat) (q : List U32)
    (hb1 : 1 ≤ params.plaintextBits) (hb : params.plaintextBits ≤ 31)
    (hqp : generateIndexQueryParams cp params tape = .ok (qp, tape'))
    (hq : (qp.generateIndexQuery prof i).2 = .ok q) :
    i < cp.length ∧ q.length = cp.length ∧
      ∀ j (h1 : j < cp.length) (h2 : j < q.length), (∀ x ∈ cp[j], x = 0#32) → (IsTernary q[j] ↔ j ≠ i) := by
  unfold generateIndexQueryParams at hqp
  obtain ⟨⟨s, t1⟩, _, hqp⟩ := Res.bind_eq_ok.1 hqp
  obtain ⟨⟨lhs, t2⟩, hm, hqp⟩ := Res.bind_eq_ok.1 hqp
  obtain ⟨r, _, hqp⟩ := Res.bind_eq_ok.1 hqp
  simp only [Res.ok.injEq, Prod.mk.injEq] at hqp
  obtain ⟨rfl, _⟩ := hqp
  obtain ⟨hl, hz⟩ := mask_of_zero hm
  have hi : i < lhs.length := by
    by_contra hcon
    rw [C06_out_of_range prof _ i hb rfl (by simpa using hcon)] at hq
    cases hq
  obtain ⟨_, hok, herr⟩ := C06_index_query_outcome prof
    { lhs := lhs, rhs := r, elemSize := params.elemSize, plaintextBits := params.plaintextBits, extraParams := none,
      used := false } i hb1 hb rfl hi
  dsimp only at hok herr
  by_cases hov : lhs[i].toNat + 2 ^ (32 - params.plaintextBits) < 2 ^ 32
  · rw [hok hov] at hq
    simp only [Res.ok.injEq] at hq
    subst hq
    refine ⟨by omega, by simp [hl], ?_⟩
    intro j h1 h2 hj
    have ht := hz j h1 (by omega) hj
    by_cases e : j = i
    · subst e
      simp only [ne_eq, not_true, iff_false]
      rw [List.getElem_set_self]
      have hD : 2 ^ 1 ≤ 2 ^ (32 - params.plaintextBits) := Nat.pow_le_pow_right (by omega) (by omega)
      have hD' : 2 ^ (32 - params.plaintextBits) ≤ 2 ^ 31 := Nat.pow_le_pow_right (by omega) (by omega)
      have hv : (lhs[j] + BitVec.ofNat 32 (2 ^ (32 - params.plaintextBits))).toNat =
          lhs[j].toNat + 2 ^ (32 - params.plaintextBits) := by
        rw [BitVec.toNat_add, BitVec.toNat_ofNat, Nat.mod_eq_of_lt (a := 2 ^ (32 - params.plaintextBits)) (by omega),
          Nat.mod_eq_of_lt hov]
      have := ternary_toNat ht
      apply not_ternary_of <;> rw [hv] <;> omega
    · simp only [ne_eq, e, not_false_eq_true, iff_true]
      rw [List.getElem_set_ne (by omega)]
      exact ht
  · rw [herr (by omega)] at hq
    cases hq

/-- **C94 (keywords).** The same for keyword queries: where public columns are zero, the words that are not ternary are those at
the key's slots. -/
theorem C94_zero_columns_reveal_the_slots (prof : Profile) (cp : List (List U32)) (params : KVParams)
    (tape tape' : List U32) (qp : QueryParams FilterParams) (key : Key)
    (size segExp cap0 : Nat) (lay : Layout) (hlay : bfLayout size segExp cap0 = .ok lay)
    (hg : params.filterParams.geom = lay.geom) (hs : params.filterParams.seed.length = 32) (hcl : cp.length = lay.arrayLen)
    (hb1 : 1 ≤ params.plaintextBits) (hb : params.plaintextBits ≤ 30)
    (hqp : generateKvQueryParams cp params tape = .ok (qp, tape')) :
    ∃ slots q, params.filterParams.getHashEvals prof key = .ok slots ∧ slots.length = 3 ∧ slots.Nodup ∧
      (qp.generateKvQuery prof key).2 = .ok q ∧ q.length = cp.length ∧ (∀ s ∈ slots, s < q.length) ∧
      ∀ j (h1 : j < cp.length) (h2 : j < q.length), (∀ x ∈ cp[j], x = 0#32) → (IsTernary q[j] ↔ j ∉ slots) := by
  unfold generateKvQueryParams at hqp
  obtain ⟨⟨s, t1⟩, _, hqp⟩ := Res.bind_eq_ok.1 hqp
  obtain ⟨⟨lhs, t2⟩, hm, hqp⟩ := Res.bind_eq_ok.1 hqp
  obtain ⟨r, _, hqp⟩ := Res.bind_eq_ok.1 hqp
  simp only [Res.ok.injEq, Prod.mk.injEq] at hqp
  obtain ⟨rfl, _⟩ := hqp
  obtain ⟨hl, hz⟩ := mask_of_zero hm
  obtain ⟨slots, q, h1, h2, h3, h4, h5, h6, h7⟩ := C07_kv_query_outcome prof size segExp cap0 lay hlay params.filterParams hg hs
    { lhs := lhs, rhs := r, elemSize := params.elemSize, plaintextBits := params.plaintextBits,
      extraParams := some params.filterParams, used := false } (by dsimp only; omega) rfl rfl (by dsimp only; omega) key
  refine ⟨slots, q, h1, h2, h3, h5, by omega, fun s hs' => by have := h4 s hs'; omega, ?_⟩
  intro j hj1 hj2 hj
  have ht := hz j hj1 (by omega) hj
  have e := h7 j (by omega)
  dsimp only at e
  rw [getD_lt hj2, getD_lt (l := lhs) (by omega)] at e
  rw [e]
  by_cases hjs : j ∈ slots
  · simp only [hjs, not_true, iff_false, if_true]
    have hD : 2 ^ 2 ≤ 2 ^ (32 - params.plaintextBits) := Nat.pow_le_pow_right (by omega) (by omega)
    have hD' : 2 ^ (32 - params.plaintextBits) ≤ 2 ^ 31 := Nat.pow_le_pow_right (by omega) (by omega)
    have hv : (lhs[j] + BitVec.ofNat 32 (2 ^ (32 - params.plaintextBits))).toNat =
        (lhs[j].toNat + 2 ^ (32 - params.plaintextBits)) % 2 ^ 32 := by
      rw [BitVec.toNat_add, BitVec.toNat_ofNat, Nat.mod_eq_of_lt (a := 2 ^ (32 - params.plaintextBits)) (by omega)]
    have := ternary_toNat ht
    apply not_ternary_of <;> rw [hv] <;> omega
  · simp only [hjs, not_false_eq_true, iff_true, if_false, BitVec.add_zero]
    exact ht

/-- **C94 (nothing is refused).** Any published parameters whose lengths fit are accepted, whatever their contents: as soon as
the random generator has produced enough acceptable words, query parameters come out. -/
theorem C94_contents_are_not_checked (cp : List (List U32)) (params : IndexParams)
    (hcp : ∀ a ∈ cp, a.length = params.dim) (hr : ∀ a ∈ params.rhs, a.length = params.dim)
    (tape : List U32) (hl : tape.length = params.dim + cp.length)
    (hacc : ∀ x ∈ tape, x.toNat ≤ ternaryRejectionSamplingMax) :
    ∃ qp, generateIndexQueryParams cp params tape = .ok (qp, []) ∧ qp.lhs.length = cp.length ∧ qp.used = false ∧
      qp.plaintextBits = params.plaintextBits := by
  have e : tape = tape.take params.dim ++ tape.drop params.dim := (List.take_append_drop _ _).symm
  have l1 : (tape.take params.dim).length = params.dim := by simp; omega
  have l2 : (tape.drop params.dim).length = cp.length := by simp; omega
  have a1 := randomTernaryVector_accepted (tape.take params.dim) (fun x hx => hacc x (List.mem_of_mem_take hx))
  have a2 := randomTernaryVector_accepted (tape.drop params.dim) (fun x hx => hacc x (List.mem_of_mem_drop hx))
  rw [l1] at a1
  rw [l2] at a2
  have a3 := randomTernaryVector_append (r := tape.drop params.dim) a1
  rw [← e, List.nil_append] at a3
  obtain ⟨s, hs⟩ : ∃ s, (tape.take params.dim).map ternaryOf = s := ⟨_, rfl⟩
  rw [hs] at a3
  have hsl : s.length = params.dim := by rw [← hs]; simp; omega
  have hm := (multLeft_spec (s := s) (A := cp)).2 ⟨fun a ha => by rw [hsl, hcp a ha], _, a2, rfl⟩
  refine ⟨{ lhs := vadd (cp.map fun a => dot s a) ((tape.drop params.dim).map ternaryOf),
            rhs := params.rhs.map fun c => dot s c, elemSize := params.elemSize,
            plaintextBits := params.plaintextBits, extraParams := none, used := false }, ?_, ?_, rfl, rfl⟩
  · unfold generateIndexQueryParams
    rw [a3, Res.bind_ok]
    dsimp only
    rw [hm, Res.bind_ok]
    dsimp only
    rw [multRight_ok (fun c hc => by rw [hsl, hr c hc])]
    rfl
  · simp [vadd]
    omega

/-- **C94 (dimension zero).** An honest server set up with LWE dimension `0` works, and every query its clients send shows the
index they ask for. -/
theorem C94_dimension_zero (prof : Profile) (prg : Prg) (seed : List U8) (strs : List (List Char)) (m T b : Nat) (shard : Shard)
    (hb : b ≤ 31) (h : Shard.fromBase64Strings prof prg seed strs 0 m T b = .ok shard)
    (tape tape' : List U32) (qp : QueryParams Unit) (i : Nat) (q : List U32)
    (hqp : generateIndexQueryParams (commonParamsFrom prg seed 0 m) shard.baseParams tape = .ok (qp, tape'))
    (hq : (qp.generateIndexQuery prof i).2 = .ok q) :
    i < m ∧ q.length = m ∧ ∀ j (hj : j < q.length), IsTernary q[j] ↔ j ≠ i := by
  obtain ⟨hb1, _, elems, hl, _, _, _, rfl⟩ := shardInv (show b ≤ 32 by omega) h
  obtain ⟨hl', hz⟩ := generateLwe_rect prg seed 0 m
  obtain ⟨h1, h2, h3⟩ := C94_zero_columns_reveal_the_index prof _ _ tape tape' qp i q
    (by simpa [shardOf] using hb1) (by simpa [shardOf] using hb) hqp hq
  rw [commonParamsFrom, hl'] at h1 h2
  refine ⟨h1, h2, ?_⟩
  intro j hj
  apply h3 j (by rw [commonParamsFrom, hl']; omega) hj
  intro x hx
  have := hz _ (List.getElem_mem (show j < (generateLweMatrixFromSeed prg seed 0 m).length by omega))
  change x ∈ (generateLweMatrixFromSeed prg seed 0 m)[j] at hx
  rw [List.eq_nil_of_length_eq_zero this] at hx
  cases hx

/-- Non-vacuity: three zero columns, a query for index 1. -/
example : ∃ qp, generateIndexQueryParams (List.replicate 3 [0#32, 0#32])
      { dim := 2, m := 3, publicSeed := [], rhs := [[5#32, 6#32]], elemSize := 4, plaintextBits := 4 }
      [1#32, 0x60000000#32, 0xb0000000#32, 3#32, 0xa0000001#32] = .ok (qp, []) ∧
    (qp.generateIndexQuery .release 1).2 = .ok [BitVec.allOnes 32, 0x10000000#32, 1#32] :=
  ⟨⟨[BitVec.allOnes 32, 0#32, 1#32], [6#32], 4, 4, none, false⟩, by decide +kernel, by decide +kernel⟩

end Chalamet
