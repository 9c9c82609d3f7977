import Verif.Props.Server

/-!
# C90: reading a database object

`Shard::get_db` gives access to the database; its methods `get_row`, `get_db_entry`, `vec_mult` and `switch_fmt` belong to the
public trait `DatabaseMatrix` (src/db/mod.rs:12-23). The documentation calls `get_row(i)` "the ith row of the DB matrix".
-/

namespace Chalamet

open Spec

/-- **C90 (index).** In a shard built from strings that decode to `elems`: `get_row(j)` is not record `j` but the list of the
`j`-th digits of all records, and panics from the row width on; after `switch_fmt` `get_row(i)` is the digits of record `i`,
and panics from `m` on. `get_db_entry(i)` panics from `m` on; `vec_mult` panics on a vector of a length other than `m` or
a column index beyond the row width and otherwise is the inner product. -/
theorem C90_index_access (prof : Profile) (prg : Prg) (seed : List U8) (strs : List (List Char))
    (n m T b : Nat) (shard : Shard) (hb : b ≤ 32) (hT : 0 < T)
    (h : Shard.fromBase64Strings prof prg seed strs n m T b = .ok shard) :
    ∃ elems : List (List U8), elems.length = m ∧ (strs.take m).map b64Decode = elems.map Res.ok ∧
      (∀ j, shard.db.getRow j = if j < width T b then .ok (column b j elems) else .panic) ∧
      (∀ i, m ≤ i → shard.db.getDbEntry prof i = .panic) ∧
      (∀ v j, shard.db.vecMult v j =
        if v.length = m ∧ j < width T b then .ok (dot v (column b j elems)) else .panic) ∧
      ∃ db', shard.db.switchFmt = .ok db' ∧
        (∀ i, db'.getRow i = if h : i < elems.length then .ok (rowOf b (width T b) elems[i]) else .panic) ∧
        db'.switchFmt = .ok shard.db := by
  obtain ⟨hb1, hm0, elems, hl, _, hdec, _, rfl⟩ := shardInv hb h
  have htake : elems.take m = elems := by rw [← hl]; exact List.take_length
  have hw : 0 < width T b := by
    unfold width
    exact Nat.div_pos (by omega) (by omega)
  have hent : (shardOf prg seed elems n m T b).db.entries = (List.range (width T b)).map fun j => column b j elems := by
    show ((List.range (width T b)).map fun j => column b j (elems.take m)) = _
    rw [htake]
  have hlen : (shardOf prg seed elems n m T b).db.entries.length = width T b := by rw [hent]; simp
  have hrow : ∀ j, rd (shardOf prg seed elems n m T b).db.entries j =
      if j < width T b then .ok (column b j elems) else .panic := by
    intro j
    split_ifs with hj
    · rw [rd_ok (by omega)]
      simp [hent]
    · exact rd_panic (by omega)
  refine ⟨elems, hl, hdec, hrow, ?_, ?_, ?_⟩
  · intro i hi
    unfold IndexDatabase.getDbEntry getMatrixSecondAt
    rw [hent]
    obtain ⟨k, hk⟩ : ∃ k, width T b = k + 1 := ⟨width T b - 1, by omega⟩
    rw [hk, List.range_succ_eq_map, List.map_cons, mapRes_cons, rd_panic (by simp [column]; omega)]
    rfl
  · intro v j
    unfold IndexDatabase.vecMult
    rw [hrow]
    by_cases hj : j < width T b
    · rw [if_pos hj, Res.bind_ok]
      by_cases hv : v.length = m
      · rw [if_neg (by rw [column_length]; omega), if_pos ⟨hv, hj⟩,
          vecMult_ok (by rw [column_length]; omega)]
        rfl
      · rw [if_pos (by rw [column_length]; omega), if_neg (fun h => hv h.1)]
    · rw [if_neg hj, if_neg (fun h => hj h.2)]
      rfl
  · have hcol : ∀ r ∈ (shardOf prg seed elems n m T b).db.entries, r.length = m := by
      intro r hr
      rw [hent] at hr
      obtain ⟨j, _, rfl⟩ := List.mem_map.1 hr
      rw [column_length, hl]
    obtain ⟨N, hN, hNl, hNr, hNc, hback, -⟩ := C23_transpose _ (width T b) m hw hm0 hlen hcol
    refine ⟨{ (shardOf prg seed elems n m T b).db with entries := N }, by
      unfold IndexDatabase.switchFmt; rw [hN]; rfl, ?_, by
      unfold IndexDatabase.switchFmt; simp only; rw [hback]; rfl⟩
    intro i
    unfold IndexDatabase.getRow
    simp only
    split_ifs with hi
    · rw [rd_ok (by omega)]
      congr 1
      have hNi := hNr _ (List.getElem_mem (show i < N.length by omega))
      apply List.ext_getElem (by rw [hNi, rowOf_length])
      intro j h1 h2
      have hj : j < width T b := by omega
      have := hNc j hj i (by omega)
      rw [getD_lt (l := N) (by omega), getD_lt h1] at this
      rw [this, hent, getD_lt (l := (List.range (width T b)).map _) (by simpa using hj)]
      simp only [List.getElem_map, List.getElem_range]
      rw [getD_lt (by rw [column_length]; omega)]
      simp [column, rowOf]
    · exact rd_panic (by omega)

/-- Non-vacuity: a shard of two elements with two digits each; row 0 is the first digits, not record 0. -/
example : ∃ s, Shard.fromBase64Strings .debug (fun _ i => BitVec.ofNat 32 i) (List.replicate 32 0#8)
    ["AQI=".toList, "Aw==".toList] 2 2 8 5 = .ok s ∧ s.db.getRow 0 = .ok [1#32, 3#32] := ⟨_, rfl, rfl⟩

/-- **C90 (element size 0).** A shard of elements of size 0 serves nothing: no column can be read or multiplied, every entry, in range
or not, is the empty string, `switch_fmt` panics, and every query of any length is answered by the empty response (8 zero bytes). -/
theorem C90_element_size_zero (prof : Profile) (prg : Prg) (seed : List U8) (strs : List (List Char))
    (n m b : Nat) (shard : Shard) (hb : b ≤ 32)
    (h : Shard.fromBase64Strings prof prg seed strs n m 0 b = .ok shard) :
    (∀ j, shard.db.getRow j = .panic) ∧ (∀ v j, shard.db.vecMult v j = .panic) ∧
    (∀ i, shard.db.getDbEntry prof i = .ok []) ∧ shard.rowIter prof = .ok (List.replicate m []) ∧
    shard.db.switchFmt = .panic ∧ ∀ q, shard.respond q = .ok (List.replicate 8 0#8) := by
  obtain ⟨hb1, hm0, elems, hl, _, hdec, _, rfl⟩ := shardInv hb h
  have hw : width 0 b = 0 := by
    unfold width
    exact Nat.div_eq_of_lt (by omega)
  have hent : (shardOf prg seed elems n m 0 b).db.entries = [] := by
    show ((List.range (width 0 b)).map fun j => column b j (elems.take m)) = _
    rw [hw]; rfl
  have hpb : (shardOf prg seed elems n m 0 b).db.plaintextBits = b := rfl
  have hes : (shardOf prg seed elems n m 0 b).db.elemSize = 0 := rfl
  have hentry : ∀ i, (shardOf prg seed elems n m 0 b).db.getDbEntry prof i = .ok [] := by
    intro i
    unfold IndexDatabase.getDbEntry getMatrixSecondAt
    rw [hent, hpb, hes]
    unfold base64FromU32Slice bytesFromU32Slice
    rw [mapRes_nil, Res.bind_ok, if_neg (by omega)]
    rfl
  refine ⟨fun j => ?_, fun v j => ?_, hentry, ?_, ?_, fun q => ?_⟩
  · unfold IndexDatabase.getRow; rw [hent]; rfl
  · unfold IndexDatabase.vecMult; rw [hent]; rfl
  · unfold Shard.rowIter
    rw [mapRes_congr (g := fun _ => Res.ok []) (fun i _ => hentry i)]
    show mapRes _ (List.range m) = _
    generalize m = k
    have : ∀ l : List Nat, mapRes (fun _ => (Res.ok [] : Res (List Char))) l = .ok (List.replicate l.length []) := by
      intro l
      induction l with
      | nil => rfl
      | cons a l ih => rw [mapRes_cons, ih]; rfl
    rw [this, List.length_range]
  · unfold IndexDatabase.switchFmt; rw [hent, swapMatrixFmt_nil]; rfl
  · unfold Shard.respond Shard.answer
    unfold IndexDatabase.getRowWidthSelf
    rw [hpb, hes, getRowWidth_ok (by omega), show (0 + b - 1) / b = 0 from hw]
    rfl

example : ∃ s, Shard.fromBase64Strings .debug (fun _ i => BitVec.ofNat 32 i) (List.replicate 32 0#8)
    ["AQI=".toList, "Aw==".toList] 2 2 0 5 = .ok s := ⟨_, rfl⟩

end Chalamet
