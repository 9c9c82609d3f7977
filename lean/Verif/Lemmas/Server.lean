import Verif.Lemmas.Flow

/-! Inversion of shard construction, and client parameters (helper lemmas). -/

namespace Chalamet
open Spec

theorem rd_take {α : Type} {l : List α} {m i : Nat} (h : i < m) : rd (l.take m) i = rd l i := by
  unfold rd
  rw [List.getElem?_take]
  simp [h]

theorem constructRows_take (prof : Profile) (strs : List (List Char)) (m T b : Nat) :
    constructRows prof (strs.take m) m T b = constructRows prof strs m T b := by
  unfold constructRows
  cases getRowWidth T b with
  | ok w =>
    simp only [Res.bind_ok]
    apply mapRes_congr
    intro i hi
    rw [rd_take (List.mem_range.1 hi)]
  | _ => rfl

theorem constructRow_eq_ok {prof : Profile} {str : List Char} {b w : Nat} (hb : b ≤ 32)
    {row : List U32} (h : constructRow prof str b w = .ok row) :
    ∃ e, b64Decode str = .ok e ∧ (w - 1) * b ≤ 8 * e.length := by
  unfold constructRow at h
  obtain ⟨e, he, h⟩ := Res.bind_eq_ok.1 h
  refine ⟨e, he, ?_⟩
  by_contra hc
  rw [rowOfBits_panic _ _ _ _ hb (by rw [bytesToBitsLe_length]; omega)] at h
  cases h

/-- The bytes of a string (empty when malformed). -/
def decOf (s : List Char) : List U8 := match b64Decode s with | .ok e => e | _ => []

theorem shardInv {prof : Profile} {prg : Prg} {seed : List U8} {strs : List (List Char)}
    {n m T b : Nat} {shard : Shard} (hb : b ≤ 32)
    (h : Shard.fromBase64Strings prof prg seed strs n m T b = .ok shard) :
    1 ≤ b ∧ 0 < m ∧ ∃ elems : List (List U8), elems.length = m ∧ m ≤ strs.length ∧
      (strs.take m).map b64Decode = elems.map Res.ok ∧
      (∀ e ∈ elems, (width T b - 1) * b ≤ 8 * e.length) ∧
      shard = shardOf prg seed elems n m T b := by
  have h0 := h
  unfold Shard.fromBase64Strings at h
  obtain ⟨db, hdb, h⟩ := Res.bind_eq_ok.1 h
  unfold IndexDatabase.new at hdb
  obtain ⟨rows, hrows, hdb⟩ := Res.bind_eq_ok.1 hdb
  obtain ⟨ent, hent, hdb⟩ := Res.bind_eq_ok.1 hdb
  have hrows0 := hrows
  unfold constructRows at hrows
  obtain ⟨w, hw, hrows⟩ := Res.bind_eq_ok.1 hrows
  have hb1 : 1 ≤ b := by
    by_contra hc
    have : b = 0 := by omega
    subst this
    simp [getRowWidth] at hw
  rw [getRowWidth_ok (by omega)] at hw
  cases hw
  have hrl : rows.length = m := by simpa using mapRes_length hrows
  have hm0 : 0 < m := by
    rcases Nat.eq_zero_or_pos m with hz | hz
    · exfalso
      have : rows = [] := List.length_eq_zero_iff.1 (by omega)
      subst this
      rw [swapMatrixFmt_nil] at hent
      cases hent
    · exact hz
  have hpt : ∀ i < m, ∃ s, strs[i]? = some s ∧ ∃ e, b64Decode s = .ok e ∧
      (width T b - 1) * b ≤ 8 * e.length := by
    intro i hi
    have hg := mapRes_getElem? hrows i
    rw [List.getElem?_range hi, List.getElem?_eq_getElem (show i < rows.length by omega)] at hg
    simp only [Option.map_some, Option.some.injEq] at hg
    obtain ⟨s, hs, hg⟩ := Res.bind_eq_ok.1 hg
    exact ⟨s, rd_eq_ok.1 hs, constructRow_eq_ok hb hg⟩
  have hml : m ≤ strs.length := by
    obtain ⟨s, hs, _⟩ := hpt (m - 1) (by omega)
    have := (List.getElem?_eq_some_iff.1 hs).1
    omega
  have hmem : ∀ s ∈ strs.take m, ∃ e, b64Decode s = .ok e ∧ (width T b - 1) * b ≤ 8 * e.length := by
    intro s hs
    obtain ⟨i, hi, rfl⟩ := List.mem_take_iff_getElem.1 hs
    obtain ⟨s', hs', h'⟩ := hpt i (by omega)
    rw [List.getElem?_eq_getElem (by omega)] at hs'
    rw [Option.some.injEq] at hs'
    rw [hs']
    exact h'
  have hdec : (strs.take m).map b64Decode = ((strs.take m).map decOf).map Res.ok := by
    rw [List.map_map]
    apply List.map_congr_left
    intro s hs
    obtain ⟨e, he, _⟩ := hmem s hs
    simp [decOf, he]
  have hlen : ((strs.take m).map decOf).length = m := by simp [hml]
  have hok : ∀ e ∈ (strs.take m).map decOf, (width T b - 1) * b ≤ 8 * e.length := by
    intro e he
    obtain ⟨s, hs, rfl⟩ := List.mem_map.1 he
    obtain ⟨e', he', h'⟩ := hmem s hs
    simpa [decOf, he'] using h'
  refine ⟨hb1, hm0, (strs.take m).map decOf, hlen, hml, hdec, hok, ?_⟩
  have hnew := shard_ok (prof := prof) (prg := prg) (seed := seed) (n := n) (T := T) hdec hb1 hb hm0
    (le_of_eq hlen.symm) (fun e he => hok e (List.mem_of_mem_take he))
  have heq : Shard.fromBase64Strings prof prg seed (strs.take m) n m T b =
      Shard.fromBase64Strings prof prg seed strs n m T b := by
    unfold Shard.fromBase64Strings IndexDatabase.new
    rw [constructRows_take]
  rw [heq, h0] at hnew
  cases hnew
  rfl

/-! ### Client parameters -/

theorem multLeft_err {s : List U32} {cp : List (List U32)} {tape t' : List U32} {e : List U32}
    (htape : randomTernaryVector cp.length tape = .ok (e, t'))
    (h : ∃ c ∈ cp, c.length ≠ s.length) : multLeft s cp tape = .err .inputSize := by
  induction cp generalizing tape e t' with
  | nil => obtain ⟨c, hc, _⟩ := h; cases hc
  | cons c cs ih =>
    rw [multLeft]
    by_cases hc : s.length = c.length
    · rw [vecMult_ok hc, Res.bind_ok]
      rw [List.length_cons, randomTernaryVector] at htape
      obtain ⟨⟨x, t1⟩, h1, htape⟩ := Res.bind_eq_ok.1 htape
      obtain ⟨⟨row, t2⟩, h2, _⟩ := Res.bind_eq_ok.1 htape
      rw [h1, Res.bind_ok]
      have : ∃ c ∈ cs, c.length ≠ s.length := by
        obtain ⟨c', hc', hne⟩ := h
        rcases List.mem_cons.1 hc' with rfl | hm
        · exact absurd hc.symm hne
        · exact ⟨c', hm, hne⟩
      simp only [ih h2 this, Res.bind_err]
    · rw [vecMult_err hc]; rfl

theorem multRight_err {s : List U32} {rhs : List (List U32)}
    (h : ∃ c ∈ rhs, c.length ≠ s.length) : multRight rhs s = .err .inputSize := by
  unfold multRight
  induction rhs with
  | nil => obtain ⟨c, hc, _⟩ := h; cases hc
  | cons c cs ih =>
    rw [mapRes_cons]
    by_cases hc : s.length = c.length
    · have : ∃ c ∈ cs, c.length ≠ s.length := by
        obtain ⟨c', hc', hne⟩ := h
        rcases List.mem_cons.1 hc' with rfl | hm
        · exact absurd hc.symm hne
        · exact ⟨c', hm, hne⟩
      rw [vecMult_ok hc, Res.bind_ok, ih this]
      rfl
    · rw [vecMult_err hc]; rfl

theorem shardOf_getDbEntry {prg : Prg} {seed : List U8} {elems : List (List U8)}
    {n m T b : Nat} {i : Nat} (hi : i < m) (hm : m ≤ elems.length) :
    getMatrixSecondAt (shardOf prg seed elems n m T b).db.entries i =
      .ok (rowOf b (width T b) (elems[i]'(by omega))) := by
  unfold getMatrixSecondAt
  show mapRes _ ((List.range (width T b)).map fun j => column b j (elems.take m)) = _
  rw [mapRes_eq_ok, rowOf, List.map_map, List.map_map]
  apply List.map_congr_left
  intro j _
  simp only [Function.comp_apply]
  rw [rd_of_some]
  simp [column, hi, List.getElem?_eq_getElem (show i < elems.length by omega)]

end Chalamet
