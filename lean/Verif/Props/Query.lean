import Verif.Lemmas.Query

/-!
# Query generation: C05, C06, C08, C09

`QueryParams` objects are the client's per-query secrets; `generate*Query` returns the object after
the call together with the outcome.
-/

namespace Chalamet
open Spec

/-! ## C05: single use -/

/-- Outcomes of a sequence of index queries on one object, and the object at the end. A call that
panics also leaves an object behind (the caller may catch the panic). -/
def indexHistory (prof : Profile) : QueryParams Unit → List Nat →
    List (Res (List U32)) × QueryParams Unit
  | qp, [] => ([], qp)
  | qp, i :: is =>
    let r := qp.generateIndexQuery prof i
    let rest := indexHistory prof r.1 is
    (r.2 :: rest.1, rest.2)

/-- The same for keyword queries. -/
def kvHistory (prof : Profile) : QueryParams FilterParams → List Key →
    List (Res (List U32)) × QueryParams FilterParams
  | qp, [] => ([], qp)
  | qp, k :: ks =>
    let r := qp.generateKvQuery prof k
    let rest := kvHistory prof r.1 ks
    (r.2 :: rest.1, rest.2)

theorem indexHistory_used (prof : Profile) (qp : QueryParams Unit) (hu : qp.used = true)
    (is : List Nat) :
    indexHistory prof qp is = (is.map fun _ => .err .queryParamsReused, qp) := by
  induction is with
  | nil => rfl
  | cons i is ih =>
    have h : qp.generateIndexQuery prof i = (qp, .err .queryParamsReused) := by
      simp [QueryParams.generateIndexQuery, hu]
    simp [indexHistory, h, ih]

theorem kvHistory_used (prof : Profile) (qp : QueryParams FilterParams) (hu : qp.used = true)
    (ks : List Key) :
    kvHistory prof qp ks = (ks.map fun _ => .err .queryParamsReused, qp) := by
  induction ks with
  | nil => rfl
  | cons i is ih =>
    have h : qp.generateKvQuery prof i = (qp, .err .queryParamsReused) := by
      simp [QueryParams.generateKvQuery, hu]
    simp [kvHistory, h, ih]

/-- **C05 (index).** In any history of `generate_query` calls, whatever the outcome of the first,
every later call returns the reuse error, at most one call yields a query, the object ends up used,
and every other field (the secret vectors included) is unchanged. -/
theorem C05_single_use_index (prof : Profile) (qp : QueryParams Unit) (i : Nat) (is : List Nat) :
    let h := indexHistory prof qp (i :: is)
    (∀ r ∈ h.1.tail, r = .err .queryParamsReused) ∧
    (h.1.filter Res.isOk).length ≤ 1 ∧
    h.1.length = is.length + 1 ∧
    h.2 = { qp with used := true } := by
  have h1 : (qp.generateIndexQuery prof i).1 = { qp with used := true } := by
    unfold QueryParams.generateIndexQuery
    split
    · rename_i hu; cases qp; simp_all
    · rfl
  simp only [indexHistory, h1]
  rw [indexHistory_used prof _ rfl]
  refine ⟨?_, ?_, by simp, rfl⟩
  · intro r hr
    have hr' : r ∈ (is.map fun _ => Res.err Err.queryParamsReused : List (Res (List U32))) := hr
    obtain ⟨_, _, rfl⟩ := List.mem_map.1 hr'
    rfl
  · rw [List.filter_cons]
    have : (is.map fun _ => (Res.err Err.queryParamsReused : Res (List U32))).filter Res.isOk = [] := by
      simp [Res.isOk]
    rw [this]
    split <;> simp

/-- **C05 (keyword).** -/
theorem C05_single_use_kv (prof : Profile) (qp : QueryParams FilterParams) (k : Key)
    (ks : List Key) :
    let h := kvHistory prof qp (k :: ks)
    (∀ r ∈ h.1.tail, r = .err .queryParamsReused) ∧
    (h.1.filter Res.isOk).length ≤ 1 ∧
    h.1.length = ks.length + 1 ∧
    h.2 = { qp with used := true } := by
  have h1 : (qp.generateKvQuery prof k).1 = { qp with used := true } := by
    unfold QueryParams.generateKvQuery
    split
    · rename_i hu; cases qp; simp_all
    · rfl
  simp only [kvHistory, h1]
  rw [kvHistory_used prof _ rfl]
  refine ⟨?_, ?_, by simp, rfl⟩
  · intro r hr
    have hr' : r ∈ (ks.map fun _ => Res.err Err.queryParamsReused : List (Res (List U32))) := hr
    obtain ⟨_, _, rfl⟩ := List.mem_map.1 hr'
    rfl
  · rw [List.filter_cons]
    have : (ks.map fun _ => (Res.err Err.queryParamsReused : Res (List U32))).filter Res.isOk = [] := by
      simp [Res.isOk]
    rw [this]
    split <;> simp

/-- Non-vacuity of C05: a history whose first call succeeds. -/
example : (indexHistory .debug ⟨[1#32, 2#32], [], 8, 4, none, false⟩ [1, 0, 7]).1 =
    [.ok [1#32, 0x10000002#32], .err .queryParamsReused, .err .queryParamsReused] := by
  decide +kernel

/-! ## C06: when a fresh query succeeds -/

/-- **C06.** A fresh index query for an in-range index yields a query exactly when
`mask[i] + D < 2^32`; otherwise it returns the overflow error. The parameters are consumed in both
cases. The query is the mask with `D` added at position `i`. -/
theorem C06_index_query_outcome (prof : Profile) (qp : QueryParams Unit) (i : Nat)
    (hb1 : 1 ≤ qp.plaintextBits) (hb : qp.plaintextBits ≤ 31) (hu : qp.used = false)
    (hi : i < qp.lhs.length) :
    (qp.generateIndexQuery prof i).1.used = true ∧
    ((qp.lhs[i]).toNat + 2 ^ (32 - qp.plaintextBits) < 2 ^ 32 →
      (qp.generateIndexQuery prof i).2 =
        .ok (qp.lhs.set i (qp.lhs[i] + BitVec.ofNat 32 (2 ^ (32 - qp.plaintextBits))))) ∧
    (2 ^ 32 ≤ (qp.lhs[i]).toNat + 2 ^ (32 - qp.plaintextBits) →
      (qp.generateIndexQuery prof i).2 = .err .overflownAdd) := by
  rw [indexQuery_fresh hu, indexQueryBody_eq hb1 hb hi]
  exact ⟨rfl, fun h => if_pos h, fun h => if_neg (by omega)⟩

/-- **C06, refutation of the unconditional claim.** For every `b` there are fresh parameters and an
in-range index for which no query is produced (with `b = 1` half of all masks are refused). -/
theorem C06_refuted (prof : Profile) (b : Nat) (hb1 : 1 ≤ b) (hb : b ≤ 31) :
    ∃ qp : QueryParams Unit, qp.plaintextBits = b ∧ qp.used = false ∧ 0 < qp.lhs.length ∧
      ∀ q, (qp.generateIndexQuery prof 0).2 ≠ .ok q := by
  refine ⟨⟨[BitVec.allOnes 32], [], 8, b, none, false⟩, rfl, rfl, by simp, ?_⟩
  intro q hq
  have h := (C06_index_query_outcome prof ⟨[BitVec.allOnes 32], [], 8, b, none, false⟩ 0 hb1 hb rfl
    (by simp)).2.2 (by
      have := Nat.two_pow_pos (32 - b)
      simp; omega)
  rw [h] at hq
  cases hq

/-- Out-of-range indices panic, and still consume the parameters. -/
theorem C06_out_of_range (prof : Profile) (qp : QueryParams Unit) (i : Nat)
    (hb : qp.plaintextBits ≤ 31) (hu : qp.used = false) (hi : qp.lhs.length ≤ i) :
    qp.generateIndexQuery prof i = ({ qp with used := true }, .panic) := by
  rw [indexQuery_fresh hu]
  unfold indexQueryBody
  rw [getRoundingFactor_ok hb]
  simp [rd_panic hi]

/-! ## C08: the support of index queries -/

/-- **C08.** The vectors that can be sent as a query for index `i` (over all masks of length `m`) are
exactly those whose coordinate `i` is at least `D`. -/
theorem C08_index_query_support (prof : Profile) (b m i : Nat) (hb1 : 1 ≤ b) (hb : b ≤ 31)
    (hi : i < m) (q : List U32) :
    (∃ qp : QueryParams Unit, qp.plaintextBits = b ∧ qp.used = false ∧ qp.lhs.length = m ∧
        (qp.generateIndexQuery prof i).2 = .ok q) ↔
      q.length = m ∧ 2 ^ (32 - b) ≤ (q.getD i 0#32).toNat := by
  constructor
  · rintro ⟨qp, rfl, hu, rfl, h⟩
    rw [indexQuery_fresh hu, indexQueryBody_eq hb1 hb hi] at h
    dsimp only at h
    split at h
    · rename_i hlt
      cases h
      refine ⟨by simp, ?_⟩
      rw [getD_lt (by simpa using hi), List.getElem_set_self, BitVec.toNat_add,
        toNat_factor hb1, Nat.mod_eq_of_lt hlt]
      omega
    · cases h
  · rintro ⟨hl, hge⟩
    have hiq : i < q.length := by omega
    rw [getD_lt hiq] at hge
    have hlt := q[i].isLt
    have hpos := Nat.two_pow_pos (32 - b)
    refine ⟨⟨q.set i (q[i] - BitVec.ofNat 32 (2 ^ (32 - b))), [], 8, b, none, false⟩, rfl, rfl,
      by simpa using hl, ?_⟩
    rw [indexQuery_fresh rfl, indexQueryBody_eq hb1 hb (by simpa using hiq)]
    have e : (q[i] - BitVec.ofNat 32 (2 ^ (32 - b))).toNat = q[i].toNat - 2 ^ (32 - b) := by
      rw [BitVec.toNat_sub_of_le, toNat_factor hb1]
      rw [BitVec.le_def, toNat_factor hb1]; exact hge
    simp only [List.getElem_set_self, e]
    rw [if_pos (by omega), List.set_set, BitVec.sub_add_cancel, List.set_getElem_self]

/-- **C08, refutation of support independence.** For any two different in-range indices there is a
vector that can be a query for the first and never for the second: the server can rule out `j`. -/
theorem C08_refuted (prof : Profile) (b m i j : Nat) (hb1 : 1 ≤ b) (hb : b ≤ 31)
    (hi : i < m) (hj : j < m) (hij : i ≠ j) :
    ∃ q, (∃ qp : QueryParams Unit, qp.plaintextBits = b ∧ qp.used = false ∧ qp.lhs.length = m ∧
        (qp.generateIndexQuery prof i).2 = .ok q) ∧
      ¬ ∃ qp : QueryParams Unit, qp.plaintextBits = b ∧ qp.used = false ∧ qp.lhs.length = m ∧
        (qp.generateIndexQuery prof j).2 = .ok q := by
  refine ⟨(List.replicate m 0#32).set i (BitVec.ofNat 32 (2 ^ (32 - b))), ?_, ?_⟩
  · rw [C08_index_query_support prof b m i hb1 hb hi]
    refine ⟨by simp, ?_⟩
    rw [getD_lt (by simpa using hi), List.getElem_set_self, toNat_factor hb1]
  · rw [C08_index_query_support prof b m j hb1 hb hj]
    rintro ⟨_, h⟩
    rw [getD_lt (by simpa using hj), List.getElem_set_ne hij] at h
    have := Nat.two_pow_pos (32 - b)
    simp at h

/-! ## C09: reusing a mask -/

/-- **C09 (index).** Two queries made from equal masks differ, coordinate by coordinate, by `D` times
the difference of the two selection vectors. -/
theorem C09_mask_reuse_index (prof : Profile) (qp : QueryParams Unit) (i j : Nat)
    (hb1 : 1 ≤ qp.plaintextBits) (hb : qp.plaintextBits ≤ 31) (hu : qp.used = false)
    (q₁ q₂ : List U32) (h₁ : (qp.generateIndexQuery prof i).2 = .ok q₁)
    (h₂ : (qp.generateIndexQuery prof j).2 = .ok q₂) :
    (∀ k < qp.lhs.length, q₁.getD k 0#32 - q₂.getD k 0#32 =
      BitVec.ofNat 32 (2 ^ (32 - qp.plaintextBits)) *
        ((if k = i then 1#32 else 0#32) - (if k = j then 1#32 else 0#32))) ∧
    (i ≠ j → ∀ k < qp.lhs.length, q₁.getD k 0#32 ≠ q₂.getD k 0#32 ↔ k = i ∨ k = j) := by
  obtain ⟨hi, _, e₁⟩ := (indexQuery_ok_iff hb hu).1 h₁
  obtain ⟨hj, _, e₂⟩ := (indexQuery_ok_iff hb hu).1 h₂
  set D := BitVec.ofNat 32 (2 ^ (32 - qp.plaintextBits)) with hD
  have key : ∀ (a : Nat) (ha : a < qp.lhs.length) (k : Nat), k < qp.lhs.length →
      (qp.lhs.set a (qp.lhs[a] + D)).getD k 0#32 =
        qp.lhs.getD k 0#32 + D * (if k = a then 1#32 else 0#32) := by
    intro a ha k hk
    by_cases e : k = a
    · subst e; simp [List.getD_eq_getElem?_getD, hk]
    · simp [List.getD_eq_getElem?_getD, Ne.symm e, e]
  have main : ∀ k < qp.lhs.length, q₁.getD k 0#32 - q₂.getD k 0#32 =
      D * ((if k = i then 1#32 else 0#32) - (if k = j then 1#32 else 0#32)) := by
    intro k hk
    rw [e₁, e₂, key i hi k hk, key j hj k hk]
    ring
  refine ⟨main, ?_⟩
  intro hij k hk
  have hm := main k hk
  have hD0 : D ≠ 0#32 := by
    intro e
    have := congrArg BitVec.toNat e
    rw [hD, toNat_factor hb1] at this
    have := Nat.two_pow_pos (32 - qp.plaintextBits)
    simp_all
  have hne : (q₁.getD k 0#32 ≠ q₂.getD k 0#32) ↔ q₁.getD k 0#32 - q₂.getD k 0#32 ≠ 0#32 := by
    rw [ne_eq, ne_eq, not_iff_not]
    exact ⟨fun h => by rw [h]; simp, fun h => by
      have := congrArg (· + q₂.getD k 0#32) h
      simpa [BitVec.sub_add_cancel] using this⟩
  rw [hne, hm]
  by_cases h1 : k = i
  · have h2 : k ≠ j := fun e => hij (h1.symm.trans e)
    simp only [h1, if_true, true_or, iff_true]
    rw [if_neg (by rw [← h1]; exact h2)]
    simpa using hD0
  · by_cases h2 : k = j
    · simp only [h2, if_true, or_true, iff_true]
      rw [if_neg (by rw [← h2]; exact h1)]
      intro e
      apply hD0
      have e2 : D * (0#32 - 1#32) = -D := by
        rw [BitVec.zero_sub, BitVec.mul_neg, BitVec.mul_one]
      rw [e2] at e
      have := congrArg (fun x => -x) e
      simpa using this
    · simp [h1, h2]

/-- **C09 (keyword).** Two keyword queries made from equal masks differ by `D` times the difference of
the slot multiplicities of the two keys. -/
theorem C09_mask_reuse_kv (prof : Profile) (qp : QueryParams FilterParams) (fp : FilterParams)
    (k₁ k₂ : Key) (s₁ s₂ : List Nat) (hb : qp.plaintextBits ≤ 31) (hu : qp.used = false)
    (hf : qp.extraParams = some fp) (hs₁ : fp.getHashEvals prof k₁ = .ok s₁)
    (hs₂ : fp.getHashEvals prof k₂ = .ok s₂)
    (q₁ q₂ : List U32) (h₁ : (qp.generateKvQuery prof k₁).2 = .ok q₁)
    (h₂ : (qp.generateKvQuery prof k₂).2 = .ok q₂) :
    ∀ k < qp.lhs.length, q₁.getD k 0#32 - q₂.getD k 0#32 =
      BitVec.ofNat 32 (2 ^ (32 - qp.plaintextBits)) *
        (BitVec.ofNat 32 (s₁.count k) - BitVec.ofNat 32 (s₂.count k)) := by
  intro k hk
  rw [kvQuery_fresh hu, kvQueryBody_eq hb hf hs₁] at h₁
  rw [kvQuery_fresh hu, kvQueryBody_eq hb hf hs₂] at h₂
  obtain ⟨p₁, e₁, _, g₁⟩ := addAt_spec _ s₁ qp.lhs (addAt_eq_ok h₁)
  obtain ⟨p₂, e₂, _, g₂⟩ := addAt_spec _ s₂ qp.lhs (addAt_eq_ok h₂)
  dsimp only at h₁ h₂
  rw [e₁] at h₁
  rw [e₂] at h₂
  cases h₁
  cases h₂
  rw [g₁ k hk, g₂ k hk]
  ring

/-- Non-vacuity of C09: two successful queries from one mask. -/
example : let qp : QueryParams Unit := ⟨[1#32, 2#32], [], 8, 4, none, false⟩
    (qp.generateIndexQuery .debug 0).2 = .ok [0x10000001#32, 2#32] ∧
    (qp.generateIndexQuery .debug 1).2 = .ok [1#32, 0x10000002#32] := by decide +kernel

end Chalamet
