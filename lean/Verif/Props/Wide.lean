import Verif.Props.AnyObject
import Verif.Props.Build

/-!
# C105: shards whose digits have 32 bits or more

`Shard::from_base64_strings` does not refuse `plaintext_bits` of 32 or more. Numbers of the code's type `usize` are modelled by
natural numbers; for `elem_size + plaintext_bits < 2^64` the code's products do not overflow.
-/

namespace Chalamet
open Spec

/-- The row of an element when a digit has more than 32 bits. -/
theorem wideRow (prof : Profile) (bits : List Bool) {b : Nat} (hb : 33 ≤ b) (w : Nat) :
    mapRes (rowDigit prof bits b) (List.range w) =
      if w = 0 then .ok [] else if 32 < bits.length then .err .inputSize
      else if w = 1 then .ok [BitVec.ofNat 32 (bitsNat bits)] else .panic := by
  rcases w with _ | w
  · rfl
  rw [if_neg (by omega), List.range_succ_eq_map, mapRes_cons]
  have h0 : rowDigit prof bits b 0 =
      if 32 < bits.length then .err .inputSize else .ok (BitVec.ofNat 32 (bitsNat bits)) := by
    unfold rowDigit
    simp only [Nat.zero_add, Nat.one_mul, Nat.zero_mul]
    by_cases h : b < bits.length
    · rw [if_pos h, if_pos (by omega)]
      unfold sliceRes
      rw [if_pos ⟨by omega, by omega⟩, Res.bind_ok]
      exact (C11_bits_u32 prof _).2 (by simp; omega)
    · rw [if_neg h]
      unfold sliceRes
      rw [if_pos ⟨by omega, by omega⟩, Res.bind_ok]
      simp only [List.drop_zero, Nat.sub_zero, List.take_length]
      by_cases h' : 32 < bits.length
      · rw [if_pos h']; exact (C11_bits_u32 prof _).2 h'
      · rw [if_neg h']; exact ((C11_bits_u32 prof _).1 (by omega)).1
  rw [h0]
  by_cases h' : 32 < bits.length
  · rw [if_pos h', if_pos h']; rfl
  · rw [if_neg h', if_neg h', Res.bind_ok]
    rcases w with _ | w
    · rfl
    · rw [if_neg (by omega), List.range_succ_eq_map, List.map_cons, mapRes_cons]
      have h1 : rowDigit prof bits b (0 + 1) = .panic := by
        unfold rowDigit
        simp only [Nat.zero_add, Nat.one_mul]
        rw [if_neg (by omega)]
        unfold sliceRes
        rw [if_neg (by omega)]
        rfl
      rw [show Nat.succ 0 = 0 + 1 from rfl, h1]
      rfl

/-- The string decodes, and its bits fit in a single digit of at most 32 bits. -/
def Spec.FitsOneWord (T b : Nat) (s : List Char) : Prop :=
  ∃ e, b64Decode s = .ok e ∧ (T = 0 ∨ (T ≤ b ∧ e.length ≤ 4))

theorem width_zero {T b : Nat} (hb : 0 < b) : width T b = 0 ↔ T = 0 := by
  unfold width
  rw [Nat.div_eq_zero_iff]
  omega

theorem width_one {T b : Nat} (hb : 0 < b) : width T b = 1 ↔ 0 < T ∧ T ≤ b := by
  unfold width
  rw [Nat.div_eq_iff hb]
  omega

/-- **C105 (building).** For digits of more than 32 bits, `Shard::from_base64_strings` succeeds exactly when there are `m ≥ 1`
strings that decode and, unless `elem_size` is 0, the element fits in one digit and every element has at most 4 bytes; the matrix is
then the single column of the elements' values (or has no column). Otherwise the first offending position decides: a missing string
panics, malformed base64 is an error, an element of more than 4 bytes is an input-size error, and a short one panics when the row has
a second digit. -/
theorem C105_build (prof : Profile) (prg : Prg) (seed : List U8) (strs : List (List Char)) (n m T b : Nat) (hb : 33 ≤ b) :
    (m = 0 → Shard.fromBase64Strings prof prg seed strs n m T b = .panic) ∧
    (0 < m → ∀ elems : List (List U8), elems.length = m → (strs.take m).map b64Decode = elems.map Res.ok →
      (∀ s ∈ strs.take m, FitsOneWord T b s) →
      ∃ shard, Shard.fromBase64Strings prof prg seed strs n m T b = .ok shard ∧
        shard.db.entries = if T = 0 then [] else [elems.map fun e => BitVec.ofNat 32 (leNat e)]) ∧
    (∀ i < m, (∀ j < i, ∃ s, strs[j]? = some s ∧ FitsOneWord T b s) →
      (strs.length ≤ i → Shard.fromBase64Strings prof prg seed strs n m T b = .panic) ∧
      (∀ s, strs[i]? = some s →
        (b64Decode s = .err .base64 → Shard.fromBase64Strings prof prg seed strs n m T b = .err .base64) ∧
        (∀ e, b64Decode s = .ok e → 0 < T →
          (4 < e.length → Shard.fromBase64Strings prof prg seed strs n m T b = .err .inputSize) ∧
          (e.length ≤ 4 → b < T → Shard.fromBase64Strings prof prg seed strs n m T b = .panic)))) := by
  have hrow : ∀ s e, b64Decode s = .ok e → constructRow prof s b (width T b) =
      if T = 0 then .ok [] else if 4 < e.length then .err .inputSize
      else if T ≤ b then .ok [BitVec.ofNat 32 (leNat e)] else .panic := by
    intro s e he
    unfold constructRow
    rw [he, Res.bind_ok, wideRow prof _ hb, (C10_bits_value e).1, (C10_bits_value e).2]
    have h0 := width_zero (T := T) (b := b) (by omega)
    have h1 := width_one (T := T) (b := b) (by omega)
    by_cases hT : T = 0
    · rw [if_pos (h0.2 hT), if_pos hT]
    · rw [if_neg (fun h => hT (h0.1 h)), if_neg hT]
      by_cases h4 : 4 < e.length
      · rw [if_pos (by omega), if_pos h4]
      · rw [if_neg (by omega), if_neg h4]
        by_cases hTb : T ≤ b
        · rw [if_pos (h1.2 ⟨by omega, hTb⟩), if_pos hTb]
        · rw [if_neg (fun h => hTb (h1.1 h).2), if_neg hTb]
  have hgood : ∀ s, FitsOneWord T b s → ∃ e, b64Decode s = .ok e ∧ constructRow prof s b (width T b) =
      .ok (if T = 0 then [] else [BitVec.ofNat 32 (leNat e)]) := by
    rintro s ⟨e, he, h⟩
    refine ⟨e, he, ?_⟩
    rw [hrow s e he]
    by_cases hT : T = 0
    · rw [if_pos hT, if_pos hT]
    · obtain ⟨h1, h2⟩ := h.resolve_left hT
      rw [if_neg hT, if_neg hT, if_neg (by omega), if_pos h1]
  have hrows : constructRows prof strs m T b =
      mapRes (fun i => rd strs i >>= fun e => constructRow prof e b (width T b)) (List.range m) := by
    unfold constructRows
    rw [getRowWidth_ok (by omega)]
    rfl
  refine ⟨?_, ?_, ?_⟩
  · rintro rfl
    unfold Shard.fromBase64Strings IndexDatabase.new
    rw [hrows]
    rfl
  · intro hm elems hl hdec hall
    have hlen : m ≤ strs.length := by
      have := congrArg List.length hdec
      simp at this
      omega
    have hR : constructRows prof strs m T b =
        .ok (elems.map fun e => if T = 0 then [] else [BitVec.ofNat 32 (leNat e)]) := by
      rw [hrows]
      have : (elems.map fun e => if T = 0 then [] else [BitVec.ofNat 32 (leNat e)]) =
          (List.range m).map fun i => if T = 0 then [] else [BitVec.ofNat 32 (leNat (elems.getD i []))] := by
        apply List.ext_getElem
        · simp [hl]
        · intro i h1 h2
          have : i < elems.length := by simpa using h1
          simp only [List.getElem_map, List.getElem_range]
          rw [getD_lt this]
      rw [this]
      apply mapRes_ok_of_forall
      intro i hi
      have hi : i < m := List.mem_range.1 hi
      have hmem : strs[i] ∈ strs.take m := List.mem_take_iff_getElem.2 ⟨i, by omega, rfl⟩
      obtain ⟨e, he, hr⟩ := hgood _ (hall _ hmem)
      have e1 : elems.getD i [] = e := by
        have h1 : ((strs.take m).map b64Decode)[i]'(by simp; omega) = (elems.map Res.ok)[i]'(by simp; omega) := by
          congr 1
        rw [List.getElem_map, List.getElem_take, List.getElem_map, he] at h1
        rw [getD_lt (by omega)]
        exact (Res.ok.inj h1).symm
      rw [rd_ok (by omega), Res.bind_ok, hr, e1]
    have hrect : Rect (elems.map fun e => if T = 0 then ([] : List U32) else [BitVec.ofNat 32 (leNat e)]) m
        (if T = 0 then 0 else 1) := by
      refine ⟨by simp [hl], ?_⟩
      intro r hr
      obtain ⟨e, _, rfl⟩ := List.mem_map.1 hr
      split <;> rfl
    have hdb : IndexDatabase.new prof strs m T b =
        .ok ⟨if T = 0 then [] else [elems.map fun e => BitVec.ofNat 32 (leNat e)], m, T, b⟩ := by
      unfold IndexDatabase.new
      rw [hR, Res.bind_ok, swapMatrixFmt_rect hrect hm, Res.bind_ok]
      by_cases hT : T = 0
      · simp [hT]
      · simp [hT]
    unfold Shard.fromBase64Strings
    rw [hdb, Res.bind_ok]
    unfold IndexParams.new
    rw [generateParamsRhs_ok (T := T) (b := b) (h := m) (col := fun _ => elems.map fun e => BitVec.ofNat 32 (leNat e))
      rfl hm (by omega) rfl rfl (by
        intro j hj r hr
        have hT : T ≠ 0 := fun h => by
          rw [(width_zero (by omega)).2 h] at hj
          omega
        have hTb : T ≤ b := by
          have hmem : strs[0] ∈ strs.take m := List.mem_take_iff_getElem.2 ⟨0, by omega, rfl⟩
          obtain ⟨e, _, h⟩ := hall _ hmem
          exact (h.resolve_left hT).1
        rw [(width_one (by omega)).2 ⟨by omega, hTb⟩] at hj
        have : j = 0 := by omega
        subst this
        show IndexDatabase.vecMult _ r 0 = _
        unfold IndexDatabase.vecMult
        rw [if_neg hT, rd_ok (by simp), Res.bind_ok]
        have hl' : r.length = (elems.map fun e => BitVec.ofNat 32 (leNat e)).length := by simp [hl, hr]
        rw [if_neg (by simpa using hl')]
        simp only [List.getElem_cons_zero]
        rw [vecMult_ok hl']
        rfl)]
    exact ⟨_, rfl, rfl⟩
  · intro i hi hprev
    have hstep : Shard.fromBase64Strings prof prg seed strs n m T b =
        ((rd strs i >>= fun e => constructRow prof e b (width T b)) >>= fun _ =>
          Shard.fromBase64Strings prof prg seed strs n m T b) := by
      have h := mapRes_range_first (f := fun i => rd strs i >>= fun e =>
        constructRow prof e b (width T b)) hi (by
          intro j hj
          obtain ⟨s, hs, hf⟩ := hprev j hj
          obtain ⟨e, -, hr⟩ := hgood s hf
          exact ⟨_, by rw [rd_of_some hs, Res.bind_ok, hr]⟩)
      unfold Shard.fromBase64Strings IndexDatabase.new
      rw [hrows]
      cases hf : (rd strs i >>= fun e => constructRow prof e b (width T b)) with
      | ok y => rfl
      | err e => rw [h, hf]; rfl
      | panic => rw [h, hf]; rfl
      | diverge => rw [h, hf]; rfl
    refine ⟨fun hlen => ?_, fun s hs => ⟨fun hd => ?_, fun e hd hT => ⟨fun h4 => ?_, fun h4 hbT => ?_⟩⟩⟩
    · rw [hstep, rd_panic hlen]; rfl
    · rw [hstep, rd_of_some hs, Res.bind_ok]
      unfold constructRow
      rw [hd]; rfl
    · rw [hstep, rd_of_some hs, Res.bind_ok, hrow s e hd, if_neg (by omega), if_pos h4]; rfl
    · rw [hstep, rd_of_some hs, Res.bind_ok, hrow s e hd, if_neg (by omega), if_neg (by omega), if_neg (by omega)]; rfl

/-- **C105 (using).** Whatever a shard was built from: if `plaintext_bits` (modulo `2^32`) is 32 or more, every client object made
from its published parameters panics when it asks for any index, and is spent by it, and panics on every response; it has no other
use. -/
theorem C105_unusable (prof : Profile) (prg : Prg) (seed : List U8) (strs : List (List Char)) (n m T b : Nat) (shard : Shard)
    (hb : 32 ≤ b % 2 ^ 32) (hsh : Shard.fromBase64Strings prof prg seed strs n m T b = .ok shard)
    (cp : List (List U32)) (tape tape' : List U32) (qp : QueryParams Unit)
    (hgen : generateIndexQueryParams cp shard.baseParams tape = .ok (qp, tape')) :
    (∀ i, qp.generateIndexQuery prof i = ({ qp with used := true }, .panic)) ∧
    (∀ resp, qp.parseIndexRow prof resp = .panic) := by
  have hbits : shard.baseParams.plaintextBits = b := by
    unfold Shard.fromBase64Strings at hsh
    obtain ⟨db, h1, hsh⟩ := Res.bind_eq_ok.1 hsh
    obtain ⟨bp, h2, hsh⟩ := Res.bind_eq_ok.1 hsh
    cases hsh
    unfold IndexDatabase.new at h1
    obtain ⟨rows, _, h1⟩ := Res.bind_eq_ok.1 h1
    obtain ⟨ents, _, h1⟩ := Res.bind_eq_ok.1 h1
    cases h1
    unfold IndexParams.new at h2
    obtain ⟨rhs, _, h2⟩ := Res.bind_eq_ok.1 h2
    cases h2
    rfl
  have hq : qp.plaintextBits = b ∧ qp.used = false := by
    unfold generateIndexQueryParams at hgen
    obtain ⟨⟨s, t1⟩, h1, h⟩ := Res.bind_eq_ok.1 hgen
    obtain ⟨⟨lhs, t2⟩, h2, h⟩ := Res.bind_eq_ok.1 h
    obtain ⟨r, h3, h⟩ := Res.bind_eq_ok.1 h
    simp only [Res.ok.injEq, Prod.mk.injEq] at h
    rw [← h.1]
    exact ⟨hbits, rfl⟩
  refine ⟨fun i => ?_, fun resp => ?_⟩
  · obtain ⟨h1, h2, -⟩ := (C104_index_query prof qp i).2 hq.2
    exact Prod.ext h1 (h2 (Or.inl (by rw [hq.1]; exact hb)))
  · exact (C104_parse prof qp resp).1 (Or.inr (Or.inl (by rw [hq.1]; exact hb)))

/-- **C105 (keywords).** A key-value shard with `plaintext_bits` (modulo `2^32`) of 32 or more is never returned, whatever the
pairs and seeds: the call panics (or, in release builds, does not return: C80). -/
theorem C105_kv_never_built (prof : Profile) (prg : Prg) (pseed : List U8) (segExp cap0 : Nat) (fp0 : Nat → Nat → U32)
    (seed : List U8) (kvs : List KeyValue) (n m T b : Nat) (hb : 32 ≤ b % 2 ^ 32) :
    KVShard.new prof prg pseed segExp cap0 fp0 seed kvs n m T b = .panic ∨
    KVShard.new prof prg pseed segExp cap0 fp0 seed kvs n m T b = .diverge := by
  cases h : KVShard.new prof prg pseed segExp cap0 fp0 seed kvs n m T b with
  | panic => exact Or.inl rfl
  | diverge => exact Or.inr rfl
  | err e => exact (C62_kv_never_err _ _ _ _ _ _ _ _ _ _ _ _ e h).elim
  | ok shard =>
    exfalso
    unfold KVShard.new at h
    obtain ⟨db, hdb, -⟩ := Res.bind_eq_ok.1 h
    obtain ⟨lay, p, w, h0, -, hw, hlay, hp, -, -, -, -, hlen, hcols⟩ := kvNew_ok hdb
    obtain ⟨data, f, -, -, hf, -, -, hfl, hmod, -⟩ := hcols 0 (by omega)
    have hp0 : p.setWidth 32 = 0#32 := by
      unfold pow2U64 at hp
      simp only at hp
      split at hp
      · have hp := Res.ok.inj hp
        apply BitVec.eq_of_toNat_eq
        rw [BitVec.toNat_setWidth, ← hp, BitVec.toNat_ofNat]
        have h64 : 2 ^ (b % 2 ^ 32) % 2 ^ 64 = 2 ^ (b % 2 ^ 32) := Nat.mod_eq_of_lt (Nat.pow_lt_pow_right (by omega) (by assumption))
        rw [h64]
        exact Nat.mod_eq_zero_of_dvd (pow_dvd_pow 2 hb)
      · cases prof
        · cases hp
        · have hp := Res.ok.inj hp
          rw [← hp]; rfl
    have hfp : f.ptxtMod = p := by
      unfold BinaryFuseP32.fromSlice at hf
      split at hf
      · cases hf
      · unfold bfusePFromImpl at hf
        split at hf
        · cases hf
        · obtain ⟨_, _, hf⟩ := Res.bind_eq_ok.1 hf
          obtain ⟨_, _, hf⟩ := Res.bind_eq_ok.1 hf
          split at hf
          · cases hf
          · obtain ⟨_, _, hf⟩ := Res.bind_eq_ok.1 hf
            obtain ⟨_, _, hf⟩ := Res.bind_eq_ok.1 hf
            cases hf
            rfl
    unfold BinaryFuseP32.getFingerprintsMod at hmod
    rw [hfp] at hmod
    simp only [hp0, if_true] at hmod
    have hpos : 0 < f.fingerprints.length := by
      rw [hfl]
      exact lt_of_le_of_lt (Nat.zero_le _) (C31_slots _ _ _ lay hlay 0#64).choose_spec.choose_spec.2.2.2.2.2.2.2.1
    cases hfs : f.fingerprints with
    | nil => rw [hfs] at hpos; exact absurd hpos (by simp)
    | cons a l => rw [hfs] at hmod; cases hmod

/-- A shard of two 3-byte elements in digits of 64 bits can be built. -/
example (prof : Profile) (prg : Prg) (seed : List U8) :
    ∃ shard, Shard.fromBase64Strings prof prg seed ["AQID".toList, "BAUG".toList] 4 2 24 64 = .ok shard ∧
      shard.db.entries = [[0x030201#32, 0x060504#32]] := by
  obtain ⟨shard, h1, h2⟩ := (C105_build prof prg seed ["AQID".toList, "BAUG".toList] 4 2 24 64 (by decide)).2.1 (by decide)
    [[1, 2, 3], [4, 5, 6]] rfl (by decide +kernel) (by
      intro s hs
      simp only [List.take_succ_cons, List.take_zero, List.mem_cons, List.not_mem_nil, or_false] at hs
      rcases hs with rfl | rfl
      · exact ⟨[1, 2, 3], by decide +kernel, by decide⟩
      · exact ⟨[4, 5, 6], by decide +kernel, by decide⟩)
  exact ⟨shard, h1, h2.trans (by decide +kernel)⟩

/-- With an element of 6 bytes it cannot. -/
example (prof : Profile) (prg : Prg) (seed : List U8) :
    Shard.fromBase64Strings prof prg seed ["AQIDBAUG".toList] 4 1 24 64 = .err .inputSize :=
  (((C105_build prof prg seed ["AQIDBAUG".toList] 4 1 24 64 (by decide)).2.2 0 (by decide) (by simp)).2 _ rfl).2
    [1, 2, 3, 4, 5, 6] (by decide +kernel) (by decide) |>.1 (by decide)

end Chalamet
