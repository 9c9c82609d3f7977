import Verif.Props.Sharp

/-!
# C93: how much one response reveals

The server answers any vector of the right length (C20), so a client can ask for more than one record at a time: packing
records into the base-`2^b` digits of a word reads `⌊32/b⌋` of them with one query, and no query reads more.
-/

namespace Chalamet

open Spec

/-- The unencrypted query that reads the records `is`: weight `1` at the first, `2^b` at the second, `2^(2b)` at the third, … -/
def Spec.packQuery (b m : Nat) : List Nat → List U32
  | [] => List.replicate m 0#32
  | i :: is => vadd ((List.replicate m 0#32).set i 1#32) ((packQuery b m is).map fun x => BitVec.ofNat 32 (2 ^ b) * x)

theorem packQuery_length (b m : Nat) (is : List Nat) : (packQuery b m is).length = m := by
  induction is with
  | nil => simp [packQuery]
  | cons i is ih => simp [packQuery, vadd, ih]

theorem dot_scale (c : U32) (v l : List U32) : dot (v.map fun x => c * x) l = c * dot v l := by
  induction v generalizing l with
  | nil => cases l <;> simp [dot]
  | cons x v ih =>
    cases l with
    | nil => simp [dot]
    | cons y l => rw [List.map_cons, dot, dot, ih, BitVec.mul_add, BitVec.mul_assoc]

theorem dot_unit {m i : Nat} {l : List U32} (hl : l.length = m) (hi : i < m) :
    dot ((List.replicate m 0#32).set i 1#32) l = l.getD i 0#32 := by
  rw [dot_set (by simpa using hi) (by omega), dot_zeros, getD_lt (by omega)]
  simp

/-- The answer to a packed query, as a number. -/
theorem dot_pack {b m : Nat} (hb : b ≤ 31) {l : List U32} (hl : l.length = m) (hd : ∀ y ∈ l, y.toNat < 2 ^ b) (is : List Nat)
    (hi : ∀ i ∈ is, i < m) (hk : b * is.length ≤ 32) :
    (dot (packQuery b m is) l).toNat < 2 ^ (b * is.length) ∧
      ∀ t (ht : t < is.length), digit b (dot (packQuery b m is) l).toNat t = (l.getD is[t] 0#32).toNat := by
  induction is with
  | nil => simp [packQuery, dot_zeros]
  | cons i is ih =>
    rw [List.length_cons, Nat.mul_succ] at hk
    obtain ⟨h1, h2⟩ := ih (fun j hj => hi j (by simp [hj])) (by omega)
    have hi0 := hi i (by simp)
    have e : dot (packQuery b m (i :: is)) l =
        l.getD i 0#32 + BitVec.ofNat 32 (2 ^ b) * dot (packQuery b m is) l := by
      rw [packQuery, dot_vadd_left (by simp [packQuery_length]), dot_unit hl hi0, dot_scale]
    have hx : (l.getD i 0#32).toNat < 2 ^ b := by
      rw [getD_lt (by omega)]; exact hd _ (List.getElem_mem _)
    generalize dot (packQuery b m is) l = y at *
    generalize hxd : l.getD i 0#32 = x at *
    have hp : 2 ^ b ≤ 2 ^ 31 := Nat.pow_le_pow_right (by omega) hb
    have hpw : 2 ^ (b * is.length + b) ≤ 2 ^ 32 := Nat.pow_le_pow_right (by omega) hk
    have hlt : x.toNat + 2 ^ b * y.toNat < 2 ^ (b * is.length + b) := by
      rw [Nat.pow_add]
      have : 2 ^ b * (y.toNat + 1) ≤ 2 ^ b * 2 ^ (b * is.length) := Nat.mul_le_mul_left _ h1
      rw [Nat.mul_comm (2 ^ (b * is.length))]
      rw [Nat.mul_succ] at this
      omega
    have hv : (dot (packQuery b m (i :: is)) l).toNat = x.toNat + 2 ^ b * y.toNat := by
      rw [e, BitVec.toNat_add, BitVec.toNat_mul, BitVec.toNat_ofNat, Nat.mod_eq_of_lt (a := 2 ^ b) (by omega)]
      rw [Nat.add_mod_mod]
      exact Nat.mod_eq_of_lt (by omega)
    rw [hv]
    refine ⟨by rw [List.length_cons, Nat.mul_succ]; exact hlt, ?_⟩
    intro t ht
    cases t with
    | zero =>
      unfold digit
      simp only [Nat.mul_zero, Nat.pow_zero, Nat.div_one, List.getElem_cons_zero]
      rw [Nat.add_mul_mod_self_left, Nat.mod_eq_of_lt hx, hxd]
    | succ t =>
      have := h2 t (by simpa using ht)
      rw [List.getElem_cons_succ, ← this]
      unfold digit
      rw [Nat.mul_succ, Nat.add_comm (b * t) b, Nat.pow_add, ← Nat.div_div_eq_div_mul, Nat.add_mul_div_left _ _ (Nat.two_pow_pos b),
        Nat.div_eq_of_lt hx, Nat.zero_add]

/-- **C93 (at least).** For any `⌊32/b⌋` records (or fewer, `b * k ≤ 32`) there is a query, depending on nothing but `b`, `m` and
the positions, whose answer by any server with `m` records of that digit size contains all digits of all those records. -/
theorem C93_one_query_reads_many (b m : Nat) (hb : b ≤ 31) (is : List Nat) (hi : ∀ i ∈ is, i < m)
    (hk : b * is.length ≤ 32) :
    ∃ q : List U32, ∀ (prof : Profile) (prg : Prg) (seed : List U8) (strs : List (List Char)) (n T : Nat) (shard : Shard),
      0 < T → T < 2 ^ 64 → Shard.fromBase64Strings prof prg seed strs n m T b = .ok shard →
      ∃ (elems : List (List U8)) (bytes : List U8) (resp : List U32), elems.length = m ∧
        (strs.take m).map b64Decode = elems.map Res.ok ∧
        shard.respond q = .ok bytes ∧ bincodeDeserialize bytes = .ok resp ∧ resp.length = width T b ∧
        ∀ t (ht : t < is.length) j (hj : j < resp.length),
          digit b resp[j].toNat t = digit b (leNat (elems.getD is[t] [])) j := by
  refine ⟨packQuery b m is, ?_⟩
  intro prof prg seed strs n T shard hT0 hT h
  obtain ⟨elems, hl, hdec, hr⟩ := C20_respond prof prg seed strs n m T b shard (by omega) hT0 h
  obtain ⟨hb1, _⟩ := shardInv (show b ≤ 32 by omega) h
  have hwT : width T b ≤ T := by
    unfold width
    calc (T + b - 1) / b ≤ (T * b) / b := by
          apply Nat.div_le_div_right
          obtain ⟨c, rfl⟩ : ∃ c, b = c + 1 := ⟨b - 1, by omega⟩
          have : c ≤ T * c := Nat.le_mul_of_pos_left c hT0
          rw [Nat.mul_succ]
          omega
      _ = T := Nat.mul_div_cancel _ (by omega)
  refine ⟨elems, _, _, hl, hdec, (hr _).1 (packQuery_length b m is), by
    have := (C22_response_round_trip ((List.range (width T b)).map fun j => dot (packQuery b m is) (column b j elems))
      (by simp; omega)).1 []
    simpa using this, by simp, ?_⟩
  intro t ht j hj
  rw [List.getElem_map, List.getElem_range]
  have hj' : j < width T b := by simpa using hj
  have hil := hi is[t] (List.getElem_mem _)
  rw [(dot_pack hb (l := column b j elems) (by simp [column, hl]) (column_lt (by omega) _) is hi hk).2 t ht,
    getD_lt (by simp [column]; omega), getD_lt (l := elems) (by omega)]
  simp only [column, List.getElem_map, BitVec.toNat_ofNat]
  exact Nat.mod_eq_of_lt (lt_of_lt_of_le (Nat.mod_lt _ (Nat.two_pow_pos b)) (Nat.pow_le_pow_right (by omega) (by omega)))

/-- The `L` low bytes of a number. -/
def Spec.bytesOf : Nat → Nat → List U8
  | 0, _ => []
  | L + 1, v => BitVec.ofNat 8 v :: bytesOf L (v / 256)

theorem bytesOf_length (L v : Nat) : (bytesOf L v).length = L := by
  induction L generalizing v with
  | zero => rfl
  | succ L ih => simp [bytesOf, ih]

theorem leNat_bytesOf (L v : Nat) (h : v < 2 ^ (8 * L)) : leNat (bytesOf L v) = v := by
  induction L generalizing v with
  | zero => simp at h; subst h; rfl
  | succ L ih =>
    rw [bytesOf, leNat, ih]
    · rw [BitVec.toNat_ofNat]
      omega
    · rw [Nat.mul_succ, Nat.pow_add] at h
      exact Nat.div_lt_of_lt_mul (by rw [Nat.mul_comm]; exact h)

/-- **C93 (at most).** No query reads more: for every vector `q` and any positions with `b * k > 32` there are two databases that
agree in all other records, differ in the digits of one of these, and get the same answer to `q`. -/
theorem C93_no_query_reads_more (prof : Profile) (prg : Prg) (seed : List U8) (n m T b : Nat) (hb1 : 1 ≤ b) (hb : b ≤ 31)
    (hbT : b ≤ T) (hm0 : 0 < m) (q : List U32) (is : List Nat) (hnd : is.Nodup) (hi : ∀ i ∈ is, i < m)
    (hk : 32 < b * is.length) :
    ∃ (e₁ e₂ : List (List U8)) (s₁ s₂ : Shard), e₁.length = m ∧ e₂.length = m ∧
      (∀ e ∈ e₁ ++ e₂, e.length = (T + 7) / 8) ∧ (∀ i, i ∉ is → e₁[i]? = e₂[i]?) ∧
      (∃ i ∈ is, rowOf b (width T b) (e₁.getD i []) ≠ rowOf b (width T b) (e₂.getD i [])) ∧
      Shard.fromBase64Strings prof prg seed (e₁.map b64Encode) n m T b = .ok s₁ ∧
      Shard.fromBase64Strings prof prg seed (e₂.map b64Encode) n m T b = .ok s₂ ∧
      s₁.respond q = s₂.respond q := by
  let k := is.length
  let el : (Fin k → Fin (2 ^ b)) → List (List U8) := fun x => (List.range m).map fun i =>
    bytesOf ((T + 7) / 8) (if h : is.idxOf i < k then (x ⟨is.idxOf i, h⟩).val else 0)
  have hval : ∀ (x : Fin k → Fin (2 ^ b)) (i : Nat), (if h : is.idxOf i < k then (x ⟨is.idxOf i, h⟩).val else 0) < 2 ^ b := by
    intro x i
    split
    · exact Fin.isLt _
    · exact Nat.two_pow_pos b
  have h8 : 2 ^ b ≤ 2 ^ (8 * ((T + 7) / 8)) := Nat.pow_le_pow_right (by omega) (by omega)
  obtain ⟨x, y, hxy, heq⟩ := Fintype.exists_ne_map_eq_of_card_lt
    (fun x : Fin k → Fin (2 ^ b) => (dot q (column b 0 (el x))).toFin) (by
      simp only [Fintype.card_fun, Fintype.card_fin]
      rw [← Nat.pow_mul]
      exact Nat.pow_lt_pow_right (by omega) hk)
  have hlen : ∀ x, (el x).length = m := fun x => by simp [el]
  have hbytes : ∀ x, ∀ e ∈ el x, e.length = (T + 7) / 8 := by
    intro x e he
    obtain ⟨i, _, rfl⟩ := List.mem_map.1 he
    exact bytesOf_length _ _
  have hsh : ∀ x, Shard.fromBase64Strings prof prg seed ((el x).map b64Encode) n m T b =
      .ok (shardOf prg seed (el x) n m T b) := fun x =>
    shard_ok (by simp [b64Decode_encode]) hb1 (by omega) hm0 (le_of_eq (hlen x).symm) (by
      intro e he
      rw [hbytes x e (List.mem_of_mem_take he)]
      exact le_trans (width_mul_le (T := T) (by omega)) (by omega))
  have hcol : ∀ x j, 0 < j → column b j (el x) = List.replicate m 0#32 := by
    intro x j hj
    apply List.ext_getElem (by simp [column, hlen])
    intro i h1 h2
    simp only [column, el, List.getElem_map, List.getElem_range, List.getElem_replicate]
    rw [leNat_bytesOf _ _ (lt_of_lt_of_le (hval x i) h8)]
    unfold digit
    rw [Nat.div_eq_of_lt (lt_of_lt_of_le (hval x i) (Nat.pow_le_pow_right (by omega) (Nat.le_mul_of_pos_right b hj)))]
    simp
  refine ⟨el x, el y, _, _, hlen x, hlen y, ?_, ?_, ?_, hsh x, hsh y, ?_⟩
  · intro e he
    rcases List.mem_append.1 he with he | he
    · exact hbytes x e he
    · exact hbytes y e he
  · intro i hi
    have : ¬ is.idxOf i < k := by
      rw [List.idxOf_lt_length_iff]; exact hi
    by_cases him : i < m
    · simp [el, him, this]
    · simp [el, him]
  · obtain ⟨t, ht⟩ := Function.ne_iff.1 hxy
    have hit := hi is[t.val] (List.getElem_mem _)
    refine ⟨is[t.val], List.getElem_mem _, ?_⟩
    have hidx : is.idxOf is[t.val] = t.val := hnd.idxOf_getElem _ _
    have hd : ∀ z : Fin k → Fin (2 ^ b), (rowOf b (width T b) ((el z).getD is[t.val] [])).getD 0 0#32 =
        BitVec.ofNat 32 (z t).val := by
      intro z
      have hw : 0 < width T b := by unfold width; exact Nat.div_pos (by omega) (by omega)
      rw [getD_lt (by rw [rowOf_length]; exact hw), getD_lt (by rw [hlen]; exact hit)]
      simp only [rowOf, el, List.getElem_map, List.getElem_range]
      rw [leNat_bytesOf _ _ (lt_of_lt_of_le (hval z _) h8)]
      unfold digit
      simp only [Nat.mul_zero, Nat.pow_zero, Nat.div_one, hidx, k, t.isLt, dite_true, Fin.eta]
      rw [Nat.mod_eq_of_lt (Fin.isLt _)]
    intro hcon
    have h1 := hd x
    rw [hcon, hd y] at h1
    apply ht
    have hp : 2 ^ b ≤ 2 ^ 31 := Nat.pow_le_pow_right (by omega) hb
    have h2 := congrArg BitVec.toNat h1
    rw [BitVec.toNat_ofNat, BitVec.toNat_ofNat, Nat.mod_eq_of_lt (by have := (y t).isLt; omega),
      Nat.mod_eq_of_lt (by have := (x t).isLt; omega)] at h2
    exact Fin.ext h2.symm
  · obtain ⟨f1, g1, g2, hr1⟩ := C20_respond prof prg seed _ n m T b _ (by omega) (by omega) (hsh x)
    obtain ⟨f2, g3, g4, hr2⟩ := C20_respond prof prg seed _ n m T b _ (by omega) (by omega) (hsh y)
    have hf : ∀ z (f : List (List U8)), (((el z).map b64Encode).take m).map b64Decode = f.map Res.ok → f = el z := by
      intro z f hf
      rw [List.take_of_length_le (by simp [hlen]), List.map_map] at hf
      have : (b64Decode ∘ b64Encode) = Res.ok := by funext e; exact b64Decode_encode e
      rw [this] at hf
      exact (List.map_injective_iff.2 (fun a b h => Res.ok.inj h) hf).symm
    rw [hf x f1 g2] at hr1
    rw [hf y f2 g4] at hr2
    by_cases hq : q.length = m
    · rw [(hr1 q).1 hq, (hr2 q).1 hq]
      congr 2
      apply List.map_congr_left
      intro j _
      rcases Nat.eq_zero_or_pos j with rfl | hj
      · exact BitVec.toFin_inj.1 heq
      · rw [hcol x j hj, hcol y j hj]
    · rw [(hr1 q).2 hq, (hr2 q).2 hq]

/-- Non-vacuity of C93: the packed query for records 2, 0, 1 of three with 10 bits per digit, its answer by a concrete server
(12 + 2^10 · 1 + 2^20 · 7), and a set of four positions that no query can read. -/
example : packQuery 10 3 [2, 0, 1] = [1024#32, 1048576#32, 1#32] ∧
    (∃ s, Shard.fromBase64Strings .debug (fun _ i => BitVec.ofNat 32 i) (List.replicate 32 0#8)
      ["AQA=".toList, "BwA=".toList, "DAA=".toList] 2 3 10 10 = .ok s ∧
      s.respond (packQuery 10 3 [2, 0, 1]) = .ok (bincodeSerialize [7341068#32])) ∧
    (∀ i ∈ [0, 1, 2], i < 3) ∧ 10 * [2, 0, 1].length ≤ 32 ∧ 32 < 10 * [3, 2, 0, 1].length :=
  ⟨by decide +kernel, ⟨_, rfl, by decide +kernel⟩, by decide, by decide, by decide⟩

end Chalamet
