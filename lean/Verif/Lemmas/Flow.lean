import Verif.Lemmas.Index

/-! End-to-end flow of an index query (helper lemmas). -/

namespace Chalamet
open Spec

/-- What the noise adds to the decoded digit. -/
def carry (b : Nat) (nu : U32) : Nat :=
  nu.toNat / 2 ^ (32 - b) + if nu.toNat % 2 ^ (32 - b) > 2 ^ (31 - b) then 1 else 0

theorem carry_window {b : Nat} (h1 : 1 ≤ b) (h : b ≤ 31) (nu : U32) :
    carry b nu % 2 ^ b = 0 ↔ InWindow b nu :=
  (carry_iff h1 h nu).trans (window_iff h1 h nu).symm

theorem add_mod_eq_left {y c p : Nat} (hy : y < p) : (y + c) % p = y ↔ c % p = 0 := by
  constructor
  · intro h
    have h2 : (y + c) % p = (y + 0) % p := by rw [h, Nat.add_zero, Nat.mod_eq_of_lt hy]
    have := Nat.ModEq.add_left_cancel' y h2
    simpa [Nat.ModEq] using this
  · intro h
    rw [Nat.add_mod, h, Nat.add_zero, Nat.mod_mod, Nat.mod_eq_of_lt hy]

/-- One coordinate of `parse_resp_as_row`. -/
theorem parseCoord {prof : Profile} {b : Nat} (h1 : 1 ≤ b) (h : b ≤ 31) (y nu rhs : U32) :
    (roundCoord prof (BitVec.ofNat 32 (2 ^ (32 - b))) (BitVec.ofNat 32 (2 ^ (31 - b)))
        (BitVec.ofNat 32 (2 ^ (32 - b)) * y + nu + rhs) rhs >>= fun r =>
      modPlain r (BitVec.ofNat 32 (2 ^ b))) =
      .ok (BitVec.ofNat 32 ((y.toNat + carry b nu) % 2 ^ b)) := by
  obtain ⟨r, hr, hv⟩ := roundCoord_val (prof := prof) h1 h y nu rhs
  rw [hr, Res.bind_ok, modPlain_ok h, hv]
  unfold carry
  rw [Nat.add_assoc]

theorem parseIndexRow_val {prof : Profile} {qp : QueryParams Unit} {resp : List U32}
    {y nu : Nat → U32} {b w : Nat} (h1 : 1 ≤ b) (h : b ≤ 31) (hb : qp.plaintextBits = b)
    (hw : width qp.elemSize b = w) (hrhs : qp.rhs.length = w)
    (hresp : resp = (List.range w).map fun j =>
      BitVec.ofNat 32 (2 ^ (32 - b)) * y j + nu j + qp.rhs.getD j 0#32) :
    qp.parseIndexRow prof resp =
      .ok ((List.range w).map fun j => BitVec.ofNat 32 (((y j).toNat + carry b (nu j)) % 2 ^ b)) := by
  unfold QueryParams.parseIndexRow
  rw [hb, getRoundingFactor_ok h, getRoundingFloor_ok h1 h, getPlaintextSize_ok h,
    getRowWidth_ok (by omega)]
  simp only [Res.bind_ok]
  rw [show (qp.elemSize + b - 1) / b = w from hw]
  apply mapRes_ok_of_forall
  intro j hj
  rw [List.mem_range] at hj
  rw [rd_of_some (a := BitVec.ofNat 32 (2 ^ (32 - b)) * y j + nu j + qp.rhs.getD j 0#32)
      (by rw [hresp]; simp [hj]),
    rd_of_some (a := qp.rhs.getD j 0#32) (by
      rw [List.getD_eq_getElem?_getD, List.getElem?_eq_getElem (by omega)]; rfl)]
  simp only [Res.bind_ok]
  exact parseCoord h1 h _ _ _

/-- The public right-hand side of the shard. -/
def rhsOf (prg : Prg) (seed : List U8) (n h w : Nat) (col : Nat → List U32) : List (List U32) :=
  (List.range w).map fun j => (List.range n).map fun k =>
    dot ((generateLweMatrixFromSeed prg seed n h).map fun r => r.getD k 0#32) (col j)

/-- The shard built from byte-string elements. -/
def shardOf (prg : Prg) (seed : List U8) (elems : List (List U8)) (n m T b : Nat) : Shard where
  db := dbOf elems m T b
  baseParams := {
    dim := n, m := m, publicSeed := seed
    rhs := rhsOf prg seed n m (width T b) fun j => column b j (elems.take m)
    elemSize := T, plaintextBits := b }

theorem shard_ok {prof : Profile} {prg : Prg} {seed : List U8} {strs : List (List Char)}
    {elems : List (List U8)} {n m T b : Nat}
    (hdec : strs.map b64Decode = elems.map Res.ok) (hb1 : 1 ≤ b) (hb : b ≤ 32) (hm0 : 0 < m) (hm : m ≤ elems.length)
    (h : ∀ e ∈ elems.take m, (width T b - 1) * b ≤ 8 * e.length) :
    Shard.fromBase64Strings prof prg seed strs n m T b =
      .ok (shardOf prg seed elems n m T b) := by
  unfold Shard.fromBase64Strings
  rw [indexNew_ok hdec hb1 hb hm0 hm h, Res.bind_ok]
  unfold IndexParams.new
  rw [generateParamsRhs_ok (T := T) (b := b) (h := m) (col := fun j => column b j (elems.take m))
    rfl hm0 (by omega) rfl rfl (fun j hj r hr => dbOf_vecMult hm hj hr)]
  rfl

theorem shard_answer {prg : Prg} {seed : List U8} {elems : List (List U8)} {n m T b : Nat}
    (hb1 : 1 ≤ b) (hm : m ≤ elems.length) {q : List U32} (hq : q.length = m) :
    (shardOf prg seed elems n m T b).answer q =
      .ok ((List.range (width T b)).map fun j => dot q (column b j (elems.take m))) := by
  unfold Shard.answer IndexDatabase.getRowWidthSelf
  have e : getRowWidth (shardOf prg seed elems n m T b).db.elemSize
      (shardOf prg seed elems n m T b).db.plaintextBits = .ok (width T b) :=
    getRowWidth_ok (by show 0 < b; omega)
  rw [e, Res.bind_ok]
  apply mapRes_ok_of_forall
  intro j hj
  rw [List.mem_range] at hj
  exact dbOf_vecMult hm hj hq

/-- What fresh query parameters contain. -/
theorem genParams_spec {prg : Prg} {seed : List U8} {n m : Nat}
    {rhs : List (List U32)} {tape tape' : List U32} {params : IndexParams} {qp : QueryParams Unit}
    (hp : params.dim = n) (hr : params.rhs = rhs)
    (h : generateIndexQueryParams (commonParamsFrom prg seed n m) params tape = .ok (qp, tape')) :
    ∃ s t1 e, randomTernaryVector n tape = .ok (s, t1) ∧
      randomTernaryVector m t1 = .ok (e, tape') ∧
      qp = { lhs := vadd ((generateLweMatrixFromSeed prg seed n m).map fun a => dot s a) e
             rhs := rhs.map fun c => dot s c
             elemSize := params.elemSize
             plaintextBits := params.plaintextBits
             extraParams := none
             used := false } := by
  unfold generateIndexQueryParams at h
  rw [hp, hr] at h
  obtain ⟨⟨s, t1⟩, h1, h⟩ := Res.bind_eq_ok.1 h
  obtain ⟨⟨lhs, t2⟩, h2, h⟩ := Res.bind_eq_ok.1 h
  obtain ⟨r, h3, h⟩ := Res.bind_eq_ok.1 h
  simp only [Res.ok.injEq, Prod.mk.injEq] at h
  obtain ⟨_, e, h5, h6⟩ := multLeft_spec.1 h2
  obtain ⟨_, h8⟩ := multRight_eq_ok.1 h3
  have hl := (generateLwe_rect prg seed n m).1
  rw [commonParamsFrom] at h5 h6
  rw [hl] at h5
  refine ⟨s, t1, e, h1, by rw [← h.2]; exact h5, ?_⟩
  rw [← h.1, h6, h8]

/-- Successful index queries. -/
theorem indexQuery_ok_iff {prof : Profile} {qp : QueryParams Unit} {i : Nat} {q : List U32}
    (hb : qp.plaintextBits ≤ 31) (hu : qp.used = false) :
    (qp.generateIndexQuery prof i).2 = .ok q ↔
      ∃ hi : i < qp.lhs.length,
        (qp.lhs[i]).toNat + (BitVec.ofNat 32 (2 ^ (32 - qp.plaintextBits))).toNat < 2 ^ 32 ∧
        q = qp.lhs.set i (qp.lhs[i] + BitVec.ofNat 32 (2 ^ (32 - qp.plaintextBits))) := by
  unfold QueryParams.generateIndexQuery indexQueryBody
  rw [hu]
  simp only [Bool.false_eq_true, if_false]
  rw [getRoundingFactor_ok hb]
  by_cases hi : i < qp.lhs.length
  · simp only [Res.bind_ok, rd_ok hi]
    split
    · rename_i hc
      rw [wr_ok hi, Res.ok.injEq]
      exact ⟨fun h => ⟨hi, hc, h.symm⟩, fun ⟨_, _, h⟩ => h.symm⟩
    · rename_i hc
      exact ⟨fun h => by simp at h, fun ⟨_, h, _⟩ => absurd h hc⟩
  · simp only [Res.bind_ok, rd_panic (not_lt.1 hi), Res.bind_panic]
    exact ⟨fun h => by simp at h, fun ⟨h, _⟩ => absurd h hi⟩

theorem digit_toNat {b : Nat} (hb : b ≤ 32) (N j : Nat) :
    (BitVec.ofNat 32 (digit b N j)).toNat = digit b N j := by
  rw [BitVec.toNat_ofNat]
  apply Nat.mod_eq_of_lt
  have h1 := digit_lt b N j
  have h2 : 2 ^ b ≤ 2 ^ 32 := Nat.pow_le_pow_right (by omega) hb
  omega

theorem ofNat_digit_mod {b : Nat} (hb : b ≤ 32) (N j c : Nat) :
    BitVec.ofNat 32 ((digit b N j + c) % 2 ^ b) = BitVec.ofNat 32 (digit b N j) ↔ c % 2 ^ b = 0 := by
  have h1 := digit_lt b N j
  have h2 : 2 ^ b ≤ 2 ^ 32 := Nat.pow_le_pow_right (by omega) hb
  have h3 := Nat.mod_lt (digit b N j + c) (Nat.two_pow_pos b)
  rw [← add_mod_eq_left h1]
  constructor
  · intro h
    have := congrArg BitVec.toNat h
    rw [BitVec.toNat_ofNat, BitVec.toNat_ofNat,
      Nat.mod_eq_of_lt (a := (digit b N j + c) % 2 ^ b) (by omega),
      Nat.mod_eq_of_lt (a := digit b N j) (by omega)] at this
    exact this
  · intro h; rw [h]

/-- The whole index exchange: what is parsed, for every draw of the client. -/
theorem index_exchange {prof : Profile} {prg : Prg} {seed : List U8} {elems : List (List U8)}
    {n m T b : Nat} (hb1 : 1 ≤ b) (hb : b ≤ 31) (hm : m ≤ elems.length)
    {tape tape' : List U32} {qp : QueryParams Unit}
    (hgen : generateIndexQueryParams (commonParamsFrom prg seed n m)
      (shardOf prg seed elems n m T b).baseParams tape = .ok (qp, tape')) :
    ∃ s t1 e, randomTernaryVector n tape = .ok (s, t1) ∧
      randomTernaryVector m t1 = .ok (e, tape') ∧
      ∀ i qp' q, qp.generateIndexQuery prof i = (qp', .ok q) →
        ∃ hi : i < m, ∃ resp, (shardOf prg seed elems n m T b).answer q = .ok resp ∧
          qp'.parseIndexRow prof resp = .ok ((List.range (width T b)).map fun j =>
            BitVec.ofNat 32 ((digit b (leNat (elems[i])) j +
              carry b (dot e (column b j (elems.take m)))) % 2 ^ b)) := by
  obtain ⟨s, t1, e, hs, he, hqp⟩ := genParams_spec (rhs := rhsOf prg seed n m (width T b)
    fun j => column b j (elems.take m)) (n := n) rfl rfl hgen
  refine ⟨s, t1, e, hs, he, ?_⟩
  intro i qp' q hq
  have hbits : qp.plaintextBits = b := by rw [hqp]; rfl
  have hq2 := (indexQuery_ok_iff (prof := prof) (by rw [hbits]; exact hb) (by rw [hqp])).1
    (congrArg Prod.snd hq)
  obtain ⟨hi, _, hqe⟩ := hq2
  have hsl := (randomTernaryVector_spec hs).1
  have hel := (randomTernaryVector_spec he).1
  have hA := generateLwe_rect prg seed n m
  have hlen : qp.lhs.length = m := by
    rw [hqp]; simp [vadd, hA.1, hel]
  have hi' : i < m := by omega
  refine ⟨hi', (List.range (width T b)).map fun j => dot q (column b j (elems.take m)), ?_, ?_⟩
  · apply shard_answer hb1 hm
    rw [hqe, List.length_set, hlen]
  · have hqp' : qp' = { qp with used := true } := by
      have h := congrArg Prod.fst hq
      have hu : qp.used = false := by rw [hqp]
      simp only [QueryParams.generateIndexQuery, hu, Bool.false_eq_true, if_false] at h
      exact h.symm
    have hcol : ∀ j, (column b j (elems.take m)).length = m := by
      intro j; rw [column_length]; simp [hm]
    rw [parseIndexRow_val (b := b) (w := width T b)
      (y := fun j => BitVec.ofNat 32 (digit b (leNat elems[i]) j))
      (nu := fun j => dot e (column b j (elems.take m))) hb1 hb]
    · congr 1
      apply List.map_congr_left
      intro j _
      rw [digit_toNat (by omega)]
    · rw [hqp']; exact hbits
    · rw [hqp', hqp]; rfl
    · rw [hqp', hqp]; simp [rhsOf]
    · apply List.map_congr_left
      intro j hj
      rw [List.mem_range] at hj
      have e1 : (qp'.rhs).getD j 0#32 = dot s ((List.range n).map fun k =>
          dot ((generateLweMatrixFromSeed prg seed n m).map fun r => r.getD k 0#32)
            (column b j (elems.take m))) := by
        rw [hqp', hqp]; simp [rhsOf, hj]
      rw [e1, hqe, dot_set hi (by rw [hcol]; exact hi'), hbits]
      have e2 := lhs_dot (col := column b j (elems.take m)) hsl hA.2 (by rw [hcol, hA.1])
        (show e.length = _ by rw [hel, hA.1])
      have e4 : qp.lhs = vadd ((generateLweMatrixFromSeed prg seed n m).map fun a => dot s a) e := by
        rw [hqp]
      rw [← e4] at e2
      rw [e2]
      have e3 : (column b j (elems.take m))[i]'(by rw [hcol]; exact hi') =
          BitVec.ofNat 32 (digit b (leNat elems[i]) j) := by simp [column]
      rw [e3]
      ring

end Chalamet
