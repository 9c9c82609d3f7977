import Verif.Lemmas.Flow

/-! Query generation (helper lemmas). -/

namespace Chalamet
open Spec

theorem indexQuery_fresh {prof : Profile} {qp : QueryParams Unit} {i : Nat} (hu : qp.used = false) :
    qp.generateIndexQuery prof i = ({ qp with used := true }, indexQueryBody prof qp i) := by
  simp [QueryParams.generateIndexQuery, hu]

theorem indexQueryBody_eq {prof : Profile} {qp : QueryParams Unit} {i : Nat}
    (hb1 : 1 ≤ qp.plaintextBits) (hb : qp.plaintextBits ≤ 31) (hi : i < qp.lhs.length) :
    indexQueryBody prof qp i =
      if (qp.lhs[i]).toNat + 2 ^ (32 - qp.plaintextBits) < 2 ^ 32 then
        .ok (qp.lhs.set i (qp.lhs[i] + BitVec.ofNat 32 (2 ^ (32 - qp.plaintextBits))))
      else .err .overflownAdd := by
  unfold indexQueryBody
  rw [getRoundingFactor_ok hb]
  simp only [Res.bind_ok, rd_ok hi, toNat_factor hb1, wr_ok hi]

/-- Effect of adding `D` at each listed position. -/
theorem addAt_spec (D : U32) (slots : List Nat) (v : List U32) (h : ∀ s ∈ slots, s < v.length) :
    ∃ q, foldRes (addAtStep D) v slots = .ok q ∧ q.length = v.length ∧
      ∀ k < v.length, q.getD k 0#32 = v.getD k 0#32 + D * BitVec.ofNat 32 (slots.count k) := by
  induction slots generalizing v with
  | nil => exact ⟨v, rfl, rfl, fun k _ => by simp⟩
  | cons s ss ih =>
    have hs : s < v.length := h s (by simp)
    have h1 : addAtStep D v s = .ok (v.set s (v[s] + D)) := by
      simp [addAtStep, rd_ok hs, wr_ok hs]
    obtain ⟨q, hq, hl, hk⟩ := ih (v.set s (v[s] + D))
      (fun x hx => by rw [List.length_set]; exact h x (by simp [hx]))
    rw [List.length_set] at hl hk
    refine ⟨q, by rw [foldRes_cons, h1]; exact hq, hl, ?_⟩
    intro k hkl
    rw [hk k hkl, List.count_cons]
    by_cases e : s = k
    · subst e
      have hg : (v.set s (v[s] + D)).getD s 0#32 = v.getD s 0#32 + D := by
        simp [List.getD_eq_getElem?_getD, hs]
      rw [hg]
      simp only [beq_self_eq_true, if_true]
      rw [show BitVec.ofNat 32 (List.count s ss + 1) = BitVec.ofNat 32 (List.count s ss) + 1#32 by
        rw [BitVec.ofNat_add]]
      rw [BitVec.mul_add, BitVec.mul_one]
      ring
    · have hg : (v.set s (v[s] + D)).getD k 0#32 = v.getD k 0#32 := by
        simp [List.getD_eq_getElem?_getD, e]
      rw [hg]
      simp [e]

theorem addAt_eq_ok {D : U32} {slots : List Nat} {v q : List U32}
    (h : foldRes (addAtStep D) v slots = .ok q) : ∀ s ∈ slots, s < v.length := by
  induction slots generalizing v with
  | nil => simp
  | cons s ss ih =>
    rw [foldRes_cons] at h
    obtain ⟨v', h1, h2⟩ := Res.bind_eq_ok.1 h
    unfold addAtStep at h1
    obtain ⟨x, hx, h1⟩ := Res.bind_eq_ok.1 h1
    have hs : s < v.length := by
      by_contra hc
      rw [rd_panic (by omega)] at hx
      simp at hx
    rw [wr_ok hs] at h1
    cases h1
    intro a ha
    rcases List.mem_cons.1 ha with rfl | ha
    · exact hs
    · simpa using ih h2 a ha

theorem ext_getD {u v : List U32} (hl : u.length = v.length)
    (h : ∀ k < v.length, u.getD k 0#32 = v.getD k 0#32) : u = v := by
  apply List.ext_getElem hl
  intro k h1 h2
  have := h k h2
  rwa [getD_lt h1, getD_lt h2] at this

theorem kvQuery_fresh {prof : Profile} {qp : QueryParams FilterParams} {key : Key}
    (hu : qp.used = false) :
    qp.generateKvQuery prof key = ({ qp with used := true }, kvQueryBody prof qp key) := by
  simp [QueryParams.generateKvQuery, hu]

theorem kvQueryBody_eq {prof : Profile} {qp : QueryParams FilterParams} {key : Key}
    {fp : FilterParams} {slots : List Nat} (hb : qp.plaintextBits ≤ 31)
    (hf : qp.extraParams = some fp) (hs : fp.getHashEvals prof key = .ok slots) :
    kvQueryBody prof qp key =
      foldRes (addAtStep (BitVec.ofNat 32 (2 ^ (32 - qp.plaintextBits)))) qp.lhs slots := by
  unfold kvQueryBody
  rw [getRoundingFactor_ok hb, Res.bind_ok, hf]
  simp only [hs, Res.bind_ok]

end Chalamet
