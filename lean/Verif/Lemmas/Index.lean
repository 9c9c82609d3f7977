import Verif.Lemmas.Row
import Verif.Lemmas.Base64
import Verif.Lemmas.Linear
import Verif.Lemmas.Round
import Verif.Lemmas.Bincode

/-! The index pipeline (helper lemmas). -/

namespace Chalamet
open Spec

theorem constructRow_ok {prof : Profile} {str : List Char} {e : List U8} {b w : Nat} (hb : b ≤ 32)
    (hdec : b64Decode str = .ok e) (h : (w - 1) * b ≤ 8 * e.length) :
    constructRow prof str b w = .ok (rowOf b w e) := by
  unfold constructRow
  rw [hdec, Res.bind_ok, rowOfBits_ok _ _ _ _ hb (by rw [bytesToBitsLe_length]; exact h),
    bytesToBitsLe_val]
  rfl

theorem rowOf_length (b w : Nat) (e : List U8) : (rowOf b w e).length = w := by simp [rowOf]

theorem rowOf_getD {b w : Nat} {e : List U8} {j : Nat} (hj : j < w) :
    (rowOf b w e).getD j 0#32 = BitVec.ofNat 32 (digit b (leNat e) j) := by
  simp [rowOf, hj]

theorem column_length (b j : Nat) (elems : List (List U8)) :
    (column b j elems).length = elems.length := by simp [column]

theorem width_mul_le {T b : Nat} (hb : 0 < b) : (width T b - 1) * b ≤ T := by
  unfold width
  have h := Nat.div_mul_le_self (T + b - 1) b
  generalize (T + b - 1) / b = q at *
  rcases Nat.eq_zero_or_pos q with rfl | hq
  · simp
  · obtain ⟨p, rfl⟩ : ∃ p, q = p + 1 := ⟨q - 1, by omega⟩
    rw [Nat.add_mul] at h
    simp only [Nat.add_sub_cancel]
    omega

theorem constructRows_ok {prof : Profile} {strs : List (List Char)} {elems : List (List U8)}
    {m T b : Nat} (hdec : strs.map b64Decode = elems.map Res.ok) (hb1 : 1 ≤ b)
    (hb : b ≤ 32) (hm : m ≤ elems.length) (h : ∀ e ∈ elems.take m, (width T b - 1) * b ≤ 8 * e.length) :
    constructRows prof strs m T b = .ok ((elems.take m).map (rowOf b (width T b))) := by
  unfold constructRows
  rw [getRowWidth_ok (by omega), Res.bind_ok, mapRes_eq_ok]
  apply List.ext_getElem (by simp [hm])
  intro i h1 h2
  have him : i < m := by simpa using h1
  have hil : i < elems.length := by omega
  simp only [List.getElem_map, List.getElem_range, List.getElem_take]
  have hsl : strs.length = elems.length := by simpa using congrArg List.length hdec
  have hd := congrArg (fun x => x[i]?) hdec
  simp only [List.getElem?_map, List.getElem?_eq_getElem hil,
    List.getElem?_eq_getElem (show i < strs.length by omega), Option.map_some,
    Option.some.injEq] at hd
  rw [rd_ok (show i < strs.length by omega), Res.bind_ok]
  apply constructRow_ok hb hd
  apply h
  rw [List.mem_take_iff_getElem]
  exact ⟨i, by omega, rfl⟩

/-- The database built from byte-string elements. -/
def dbOf (elems : List (List U8)) (m T b : Nat) : IndexDatabase where
  entries := (List.range (width T b)).map fun j => column b j (elems.take m)
  m := m
  elemSize := T
  plaintextBits := b

theorem indexNew_ok {prof : Profile} {strs : List (List Char)} {elems : List (List U8)}
    {m T b : Nat} (hdec : strs.map b64Decode = elems.map Res.ok) (hb1 : 1 ≤ b)
    (hb : b ≤ 32) (hm0 : 0 < m) (hm : m ≤ elems.length)
    (h : ∀ e ∈ elems.take m, (width T b - 1) * b ≤ 8 * e.length) :
    IndexDatabase.new prof strs m T b = .ok (dbOf elems m T b) := by
  unfold IndexDatabase.new
  rw [constructRows_ok hdec hb1 hb hm h, Res.bind_ok, swapMatrixFmt_rect (h := m) (w := width T b) ⟨by simp [hm], ?_⟩ hm0,
    Res.bind_ok]
  · unfold dbOf column
    congr 2
    apply List.map_congr_left
    intro j hj
    rw [List.mem_range] at hj
    rw [List.map_map]
    apply List.map_congr_left
    intro e _
    exact rowOf_getD hj
  · intro r hr
    obtain ⟨e, _, rfl⟩ := List.mem_map.1 hr
    exact rowOf_length _ _ _

theorem dbOf_vecMult {elems : List (List U8)} {m T b : Nat} (hm : m ≤ elems.length) {r : List U32}
    {j : Nat} (hj : j < width T b) (hr : r.length = m) :
    (dbOf elems m T b).vecMult r j = .ok (dot r (column b j (elems.take m))) := by
  unfold IndexDatabase.vecMult
  have hl : r.length = (column b j (elems.take m)).length := by
    rw [column_length, hr]; simp [hm]
  rw [rd_of_some (a := column b j (elems.take m)) (by simp [dbOf, hj]), Res.bind_ok,
    if_neg (by simpa using hl), vecMult_ok hl]
  rfl

/-- The public right-hand side `Aᵀ·DB`. -/
theorem generateParamsRhs_ok {T' : Type} [DatabaseMatrix T'] {prg : Prg} {db : T'} {seed : List U8}
    {dim h T b : Nat} {col : Nat → List U32}
    (hh : DatabaseMatrix.getMatrixHeight db = .ok h) (hpos : 0 < h) (hb : 0 < b)
    (hT : DatabaseMatrix.getElemSize db = T) (hbits : DatabaseMatrix.getPlaintextBits db = b)
    (hv : ∀ j < width T b, ∀ r : List U32, r.length = h →
      DatabaseMatrix.vecMult db r j = .ok (dot r (col j))) :
    generateParamsRhs prg db seed dim = .ok ((List.range (width T b)).map fun j =>
      (List.range dim).map fun k =>
        dot ((generateLweMatrixFromSeed prg seed dim h).map fun r => r.getD k 0#32) (col j)) := by
  unfold generateParamsRhs
  have hrect := generateLwe_rect prg seed dim h
  rw [hh, Res.bind_ok, swapMatrixFmt_rect hrect hpos, Res.bind_ok, hT, hbits, getRowWidth_ok hb,
    Res.bind_ok]
  apply mapRes_ok_of_forall
  intro j hj
  rw [List.mem_range] at hj
  rw [mapRes_ok_of_forall (g := fun r => dot r (col j))]
  · rw [List.map_map]; rfl
  · intro r hr
    obtain ⟨k, _, rfl⟩ := List.mem_map.1 hr
    apply hv j hj
    simp [hrect.1]

/-- Response minus right-hand side is the noise: `lhs·col - rhs = e·col`. -/
theorem lhs_dot {s e col : List U32} {A : List (List U32)} {n : Nat} (hs : s.length = n)
    (hA : ∀ a ∈ A, a.length = n) (hc : col.length = A.length) (he : e.length = A.length) :
    dot (vadd (A.map fun a => dot s a) e) col =
      dot s ((List.range n).map fun k => dot (A.map fun r => r.getD k 0#32) col) + dot e col := by
  rw [dot_vadd_left (by simp [he]), dot_transpose s A col n hs hA hc]

theorem map_decode_encode (elems : List (List U8)) :
    (elems.map b64Encode).map b64Decode = elems.map Res.ok := by
  simp [b64Decode_encode]

end Chalamet
