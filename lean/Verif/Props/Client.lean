import Verif.Lemmas.Flow
import Verif.Props.Filter
import Verif.Props.Kv

/-!
# C59, C60: parsing arbitrary responses

The server is not trusted to answer correctly, so these theorems quantify over every response vector and not
only over those an honest server sends.
-/

namespace Chalamet
open Spec

namespace Spec

/-- `x / D` rounded to the nearest integer, ties towards zero, reduced modulo `2^b`, for `D = 2^(32-b)`. -/
def decode (b : Nat) (x : U32) : Nat := (x.toNat + (2 ^ (31 - b) - 1)) / 2 ^ (32 - b) % 2 ^ b

end Spec

theorem carry_decode {b : Nat} (h1 : 1 ≤ b) (h : b ≤ 31) (x : U32) : carry b x % 2 ^ b = decode b x := by
  unfold carry decode
  have hD1 : 2 ^ (32 - b) = 2 * 2 ^ (31 - b) := by
    have : 32 - b = (31 - b) + 1 := by omega
    rw [this, Nat.pow_succ]; ring
  have hf := Nat.two_pow_pos (31 - b)
  rw [hD1]
  generalize 2 ^ (31 - b) = f at *
  congr 1
  have hdm := Nat.div_add_mod x.toNat (2 * f)
  have hm := Nat.mod_lt x.toNat (show 0 < 2 * f by omega)
  generalize x.toNat / (2 * f) = q at *
  generalize x.toNat % (2 * f) = r at *
  rw [← hdm, show 2 * f * q + r + (f - 1) = (r + (f - 1)) + 2 * f * q by omega,
    Nat.add_mul_div_left _ _ (by omega)]
  by_cases hr : r > f
  · rw [if_pos hr, Nat.div_eq_of_lt_le (k := 1) (by omega) (by omega)]
    omega
  · rw [if_neg hr, Nat.div_eq_of_lt (by omega)]
    omega

/-- One coordinate of any response. -/
theorem parseCoord_any {prof : Profile} {b : Nat} (h1 : 1 ≤ b) (h : b ≤ 31) (x c : U32) :
    (roundCoord prof (BitVec.ofNat 32 (2 ^ (32 - b))) (BitVec.ofNat 32 (2 ^ (31 - b))) x c >>= fun r =>
      modPlain r (BitVec.ofNat 32 (2 ^ b))) = .ok (BitVec.ofNat 32 (decode b (x - c))) := by
  have := parseCoord (prof := prof) h1 h 0#32 (x - c) c
  rw [show BitVec.ofNat 32 (2 ^ (32 - b)) * 0#32 + (x - c) + c = x by
    rw [BitVec.mul_zero, BitVec.zero_add, BitVec.sub_add_cancel]] at this
  rw [this, show (0#32).toNat = 0 from rfl, Nat.zero_add, carry_decode h1 h]

theorem decode_lt {b : Nat} (x : U32) : decode b x < 2 ^ b := Nat.mod_lt _ (Nat.two_pow_pos b)

/-- A prefix of successes followed by a panic panics. -/
theorem mapRes_range_panic {β : Type} {f : Nat → Res β} {n k : Nat} (hk : k < n)
    (hok : ∀ i < k, ∃ y, f i = .ok y) (hp : f k = .panic) : mapRes f (List.range n) = .panic := by
  have hsplit : List.range n = List.range k ++ k :: (List.range (n - k - 1)).map (k + 1 + ·) := by
    rw [show n = (k + 1) + (n - k - 1) by omega, List.range_add, List.range_succ, List.append_assoc]
    congr 1
    rw [show k + 1 + (n - k - 1) - k - 1 = n - k - 1 by omega]
    rfl
  obtain ⟨bs, hbs⟩ : ∃ bs, mapRes f (List.range k) = .ok bs := by
    clear hsplit hp hk
    induction k with
    | zero => exact ⟨[], rfl⟩
    | succ k ih =>
      obtain ⟨bs, hbs⟩ := ih fun i hi => hok i (by omega)
      obtain ⟨y, hy⟩ := hok k (by omega)
      refine ⟨bs ++ [y], ?_⟩
      rw [List.range_succ, mapRes_append, hbs, Res.bind_ok, mapRes_cons, hy]
      rfl
  rw [hsplit]
  exact mapRes_panic_of hbs hp

/-- **C59 (index).** For any response vector, honest or not: parsing panics exactly when the response has
fewer coordinates than the row width; otherwise the row has one digit per column, each is the nearest multiple
of `D` to (response - right-hand side), and surplus coordinates are ignored. -/
theorem C59_index_any_response (prof : Profile) (qp : QueryParams Unit) (b T : Nat)
    (hb1 : 1 ≤ b) (hb : b ≤ 31) (hbits : qp.plaintextBits = b) (hT : qp.elemSize = T)
    (hrhs : width T b ≤ qp.rhs.length) (resp : List U32) :
    (resp.length < width T b → qp.parseIndexRow prof resp = .panic) ∧
    (width T b ≤ resp.length → ∃ row, qp.parseIndexRow prof resp = .ok row ∧ row.length = width T b ∧
      (∀ x ∈ row, x.toNat < 2 ^ b) ∧
      ∀ i (hi : i < row.length) (h1 : i < resp.length) (h2 : i < qp.rhs.length),
        row[i].toNat = decode b (resp[i] - qp.rhs[i])) := by
  have h2b : 2 ^ b < 2 ^ 32 := Nat.pow_lt_pow_right (by omega) (by omega)
  have hcoord : ∀ i (h1 : i < resp.length) (h2 : i < qp.rhs.length),
      (rd resp i >>= fun left => rd qp.rhs i >>= fun right =>
        roundCoord prof (BitVec.ofNat 32 (2 ^ (32 - b))) (BitVec.ofNat 32 (2 ^ (31 - b))) left right
          >>= fun r => modPlain r (BitVec.ofNat 32 (2 ^ b))) =
      .ok (BitVec.ofNat 32 (decode b (resp[i] - qp.rhs[i]))) := by
    intro i h1 h2
    rw [rd_ok h1, Res.bind_ok, rd_ok h2, Res.bind_ok, parseCoord_any hb1 hb]
  unfold QueryParams.parseIndexRow
  rw [hbits, hT, getRoundingFactor_ok hb, getRoundingFloor_ok hb1 hb, getPlaintextSize_ok hb]
  simp only [Res.bind_ok]
  rw [getRowWidth_ok (by omega), Res.bind_ok]
  constructor
  · intro hlt
    refine mapRes_range_panic (k := resp.length) hlt ?_ ?_
    · intro i hi
      exact ⟨_, hcoord i hi (by omega)⟩
    · rw [rd_panic (Nat.le_refl _)]; rfl
  · intro hle
    refine ⟨(List.range (width T b)).map fun i =>
      BitVec.ofNat 32 (decode b (resp.getD i 0#32 - qp.rhs.getD i 0#32)), ?_, by simp, ?_, ?_⟩
    · apply mapRes_ok_of_forall
      intro i hi
      have hi' : i < width T b := List.mem_range.1 hi
      rw [hcoord i (by omega) (by omega), getD_lt (by omega), getD_lt (by omega)]
    · intro x hx
      obtain ⟨i, _, rfl⟩ := List.mem_map.1 hx
      rw [BitVec.toNat_ofNat, Nat.mod_eq_of_lt (lt_trans (decode_lt _) h2b)]
      exact decode_lt _
    · intro i hi h1 h2
      rw [List.getElem_map, List.getElem_range, BitVec.toNat_ofNat,
        Nat.mod_eq_of_lt (lt_trans (decode_lt _) h2b), getD_lt h1, getD_lt h2]

theorem kvCoord_any {prof : Profile} {b : Nat} (hb1 : 1 ≤ b) (hb : b ≤ 31) {fp : FilterParams}
    {key : Key} {h : U64} (hh : mix256 key fp.seed = .ok h) {resp rhs : List U32} (i : Nat) (h1 : i < resp.length)
    (h2 : i < rhs.length) :
    (rd resp i >>= fun left => rd rhs i >>= fun right =>
      roundCoord prof (BitVec.ofNat 32 (2 ^ (32 - b))) (BitVec.ofNat 32 (2 ^ (31 - b))) left right
        >>= fun r => fp.unmaskValue r key (BitVec.ofNat 64 i)
        >>= fun u => modPlain u (BitVec.ofNat 32 (2 ^ b))) =
    .ok (BitVec.ofNat 32 ((decode b (resp[i] - rhs[i]) + (mix h (BitVec.ofNat 64 i)).toNat) % 2 ^ b)) := by
  have h2b : 2 ^ b < 2 ^ 32 := Nat.pow_lt_pow_right (by omega) (by omega)
  have hfpr : BinaryFuseP32.getKeyFingerprint key fp.seed (BitVec.ofNat 64 i) = .ok (mix h (BitVec.ofNat 64 i)) := by
    simp [BinaryFuseP32.getKeyFingerprint, hh]
  rw [rd_ok h1, Res.bind_ok, rd_ok h2, Res.bind_ok]
  have hp := parseCoord_any (prof := prof) hb1 hb resp[i] rhs[i]
  obtain ⟨r, hr, hm⟩ := Res.bind_eq_ok.1 hp
  rw [hr, Res.bind_ok]
  unfold FilterParams.unmaskValue
  rw [hfpr, Res.bind_ok, Res.bind_ok, modPlain_ok hb]
  rw [modPlain_ok hb, Res.ok.injEq] at hm
  have hm' := congrArg BitVec.toNat hm
  rw [BitVec.toNat_ofNat, BitVec.toNat_ofNat,
    Nat.mod_eq_of_lt (lt_trans (Nat.mod_lt _ (Nat.two_pow_pos b)) h2b),
    Nat.mod_eq_of_lt (lt_trans (decode_lt _) h2b)] at hm'
  congr 2
  rw [BitVec.toNat_add, BitVec.toNat_setWidth, ← hm', Nat.mod_mod_of_dvd _ (pow_dvd_pow 2 (by omega)),
    Nat.add_mod, Nat.mod_mod_of_dvd _ (pow_dvd_pow 2 (by omega))]
  conv_rhs => rw [Nat.add_mod, Nat.mod_mod]

/-- **C59 (keyword).** The same for keyword retrieval: the digit is the nearest multiple of `D` plus the key's
fingerprint for that column, modulo `2^b`. No response makes parsing return an error. -/
theorem C59_kv_any_response (prof : Profile) (qp : QueryParams FilterParams) (b T : Nat)
    (hb1 : 1 ≤ b) (hb : b ≤ 31) (hbits : qp.plaintextBits = b) (hT : qp.elemSize = T)
    (hrhs : width T b ≤ qp.rhs.length) (fp : FilterParams) (hfp : qp.extraParams = some fp)
    (hseed : fp.seed.length = 32) (resp : List U32) (key : Key) :
    (resp.length < width T b → qp.parseKvRow prof resp key = .panic) ∧
    (width T b ≤ resp.length → ∃ row, qp.parseKvRow prof resp key = .ok row ∧ row.length = width T b ∧
      (∀ x ∈ row, x.toNat < 2 ^ b) ∧
      ∀ i (hi : i < row.length) (h1 : i < resp.length) (h2 : i < qp.rhs.length),
        ∃ f, BinaryFuseP32.getKeyFingerprint key fp.seed (BitVec.ofNat 64 i) = .ok f ∧
          row[i].toNat = (decode b (resp[i] - qp.rhs[i]) + f.toNat) % 2 ^ b) := by
  have h2b : 2 ^ b < 2 ^ 32 := Nat.pow_lt_pow_right (by omega) (by omega)
  obtain ⟨h, hh⟩ := mix256_total hseed key
  have hfpr : ∀ i : Nat, BinaryFuseP32.getKeyFingerprint key fp.seed (BitVec.ofNat 64 i) =
      .ok (mix h (BitVec.ofNat 64 i)) := by
    intro i
    simp [BinaryFuseP32.getKeyFingerprint, hh]
  have hcoord : ∀ i (h1 : i < resp.length) (h2 : i < qp.rhs.length),
      (rd resp i >>= fun left => rd qp.rhs i >>= fun right =>
        roundCoord prof (BitVec.ofNat 32 (2 ^ (32 - b))) (BitVec.ofNat 32 (2 ^ (31 - b))) left right
          >>= fun r => fp.unmaskValue r key (BitVec.ofNat 64 i)
          >>= fun u => modPlain u (BitVec.ofNat 32 (2 ^ b))) =
      .ok (BitVec.ofNat 32 ((decode b (resp[i] - qp.rhs[i]) + (mix h (BitVec.ofNat 64 i)).toNat) % 2 ^ b)) := by
    exact fun i h1 h2 => kvCoord_any hb1 hb hh i h1 h2
  unfold QueryParams.parseKvRow
  rw [hbits, hT, hfp, getRoundingFactor_ok hb, getRoundingFloor_ok hb1 hb, getPlaintextSize_ok hb]
  simp only [Res.bind_ok]
  rw [getRowWidth_ok (by omega), Res.bind_ok]
  constructor
  · intro hlt
    refine mapRes_range_panic (k := resp.length) hlt ?_ ?_
    · intro i hi
      exact ⟨_, hcoord i hi (by omega)⟩
    · rw [rd_panic (Nat.le_refl _)]; rfl
  · intro hle
    refine ⟨(List.range (width T b)).map fun i =>
      BitVec.ofNat 32 ((decode b (resp.getD i 0#32 - qp.rhs.getD i 0#32) +
        (mix h (BitVec.ofNat 64 i)).toNat) % 2 ^ b), ?_, by simp, ?_, ?_⟩
    · apply mapRes_ok_of_forall
      intro i hi
      have hi' : i < width T b := List.mem_range.1 hi
      rw [hcoord i (by omega) (by omega), getD_lt (by omega), getD_lt (by omega)]
    · intro x hx
      obtain ⟨i, _, rfl⟩ := List.mem_map.1 hx
      rw [BitVec.toNat_ofNat, Nat.mod_eq_of_lt (lt_trans (Nat.mod_lt _ (Nat.two_pow_pos b)) h2b)]
      exact Nat.mod_lt _ (Nat.two_pow_pos b)
    · intro i hi h1 h2
      refine ⟨_, hfpr i, ?_⟩
      rw [List.getElem_map, List.getElem_range, BitVec.toNat_ofNat,
        Nat.mod_eq_of_lt (lt_trans (Nat.mod_lt _ (Nat.two_pow_pos b)) h2b), getD_lt h1, getD_lt h2]

/-- **C59 (bytes).** Whatever the response, once it has enough coordinates the parsed byte string (index
retrieval, at least one column) exists and its length depends only on the parameters. -/
theorem C59_index_bytes_length (prof : Profile) (qp : QueryParams Unit) (b T : Nat)
    (hb1 : 1 ≤ b) (hb : b ≤ 31) (hbits : qp.plaintextBits = b) (hT : qp.elemSize = T) (hT0 : 0 < T)
    (hrhs : width T b ≤ qp.rhs.length) (resp : List U32) (hresp : width T b ≤ resp.length) :
    ∃ bytes, qp.parseIndexBytes prof resp = .ok bytes ∧
      bytes.length = (b * (width T b - 1) + T % b + 7) / 8 := by
  obtain ⟨row, hrow, hl, _⟩ :=
    (C59_index_any_response prof qp b T hb1 hb hbits hT hrhs resp).2 hresp
  have hw : 0 < width T b := Nat.div_pos (by omega) (by omega)
  have hne : row ≠ [] := by rintro rfl; simp at hl; omega
  obtain ⟨bytes, h1, h2, _⟩ := bytesFromU32Slice_val (prof := prof) (v := row.dropLast)
    (x := row.getLast hne) (b := b) (T := T) (by omega) (by omega)
  rw [List.dropLast_append_getLast] at h1
  refine ⟨bytes, ?_, ?_⟩
  · unfold QueryParams.parseIndexBytes
    rw [hrow, Res.bind_ok, hbits, hT, h1]
  · rw [h2, List.length_dropLast, hl]

/-! ## C60: responses are malleable -/

theorem decode_shift {b : Nat} (h1 : 1 ≤ b) (h : b ≤ 31) (x k : U32) :
    decode b (x + BitVec.ofNat 32 (2 ^ (32 - b)) * k) = (decode b x + k.toNat) % 2 ^ b := by
  have e : BitVec.ofNat 32 (2 ^ (32 - b)) * k + x + 0#32 = x + BitVec.ofNat 32 (2 ^ (32 - b)) * k := by
    rw [BitVec.add_zero, BitVec.add_comm]
  have h2b : 2 ^ b < 2 ^ 32 := Nat.pow_lt_pow_right (by omega) (by omega)
  have p1 := parseCoord (prof := .release) h1 h k x 0#32
  rw [e, parseCoord_any h1 h, Res.ok.injEq, BitVec.sub_zero] at p1
  have := congrArg BitVec.toNat p1
  rw [BitVec.toNat_ofNat, BitVec.toNat_ofNat, Nat.mod_eq_of_lt (lt_trans (decode_lt _) h2b),
    Nat.mod_eq_of_lt (lt_trans (Nat.mod_lt _ (Nat.two_pow_pos b)) h2b)] at this
  rw [this, ← carry_decode h1 h, Nat.add_comm, Nat.mod_add_mod]

/-- **C60 (index).** Adding `k * D` to coordinate `i` of any response adds `k` modulo `2^b` to digit `i` of the
parsed row and changes nothing else: the server (or anyone on the path) can shift any digit of the result by
any amount without the client noticing. -/
theorem C60_index_malleable (prof : Profile) (qp : QueryParams Unit) (b T : Nat)
    (hb1 : 1 ≤ b) (hb : b ≤ 31) (hbits : qp.plaintextBits = b) (hT : qp.elemSize = T)
    (hrhs : width T b ≤ qp.rhs.length) (resp : List U32) (hresp : width T b ≤ resp.length)
    (i : Nat) (hi : i < width T b) (k : U32) :
    ∃ row, ∃ (hir : i < row.length), qp.parseIndexRow prof resp = .ok row ∧
      qp.parseIndexRow prof (resp.set i (resp[i] + BitVec.ofNat 32 (2 ^ (32 - b)) * k)) =
        .ok (row.set i (BitVec.ofNat 32 ((row[i].toNat + k.toNat) % 2 ^ b))) := by
  have h2b : 2 ^ b < 2 ^ 32 := Nat.pow_lt_pow_right (by omega) (by omega)
  obtain ⟨row, hrow, hl, _, hv⟩ :=
    (C59_index_any_response prof qp b T hb1 hb hbits hT hrhs resp).2 hresp
  obtain ⟨row', hrow', hl', _, hv'⟩ :=
    (C59_index_any_response prof qp b T hb1 hb hbits hT hrhs
      (resp.set i (resp[i] + BitVec.ofNat 32 (2 ^ (32 - b)) * k))).2 (by simpa using hresp)
  refine ⟨row, by omega, hrow, ?_⟩
  rw [hrow']
  congr 1
  apply List.ext_getElem (by simp [hl, hl'])
  intro j hj hj'
  apply BitVec.eq_of_toNat_eq
  rw [hv' j hj (by simp; omega) (by omega), List.getElem_set, List.getElem_set]
  by_cases hij : i = j
  · subst hij
    rw [if_pos rfl, if_pos rfl, show resp[i] + BitVec.ofNat 32 (2 ^ (32 - b)) * k - qp.rhs[i] =
      (resp[i] - qp.rhs[i]) + BitVec.ofNat 32 (2 ^ (32 - b)) * k by
        rw [BitVec.sub_eq_add_neg, BitVec.sub_eq_add_neg, BitVec.add_assoc, BitVec.add_assoc,
          BitVec.add_comm (BitVec.ofNat 32 (2 ^ (32 - b)) * k)],
      decode_shift hb1 hb, hv i (by omega) (by omega) (by omega), BitVec.toNat_ofNat,
      Nat.mod_eq_of_lt (lt_trans (Nat.mod_lt _ (Nat.two_pow_pos b)) h2b)]
  · rw [if_neg hij, if_neg hij, hv j (by omega) (by omega) (by omega)]

/-- **C60 (keyword).** The same for keyword retrieval. -/
theorem C60_kv_malleable (prof : Profile) (qp : QueryParams FilterParams) (b T : Nat)
    (hb1 : 1 ≤ b) (hb : b ≤ 31) (hbits : qp.plaintextBits = b) (hT : qp.elemSize = T)
    (hrhs : width T b ≤ qp.rhs.length) (fp : FilterParams) (hfp : qp.extraParams = some fp)
    (hseed : fp.seed.length = 32) (key : Key) (resp : List U32) (hresp : width T b ≤ resp.length)
    (i : Nat) (hi : i < width T b) (k : U32) :
    ∃ row, ∃ (hir : i < row.length), qp.parseKvRow prof resp key = .ok row ∧
      qp.parseKvRow prof (resp.set i (resp[i] + BitVec.ofNat 32 (2 ^ (32 - b)) * k)) key =
        .ok (row.set i (BitVec.ofNat 32 ((row[i].toNat + k.toNat) % 2 ^ b))) := by
  have h2b : 2 ^ b < 2 ^ 32 := Nat.pow_lt_pow_right (by omega) (by omega)
  obtain ⟨row, hrow, hl, _, hv⟩ :=
    (C59_kv_any_response prof qp b T hb1 hb hbits hT hrhs fp hfp hseed resp key).2 hresp
  obtain ⟨row', hrow', hl', _, hv'⟩ :=
    (C59_kv_any_response prof qp b T hb1 hb hbits hT hrhs fp hfp hseed
      (resp.set i (resp[i] + BitVec.ofNat 32 (2 ^ (32 - b)) * k)) key).2 (by simpa using hresp)
  refine ⟨row, by omega, hrow, ?_⟩
  rw [hrow']
  congr 1
  apply List.ext_getElem (by simp [hl, hl'])
  intro j hj hj'
  apply BitVec.eq_of_toNat_eq
  obtain ⟨f, hf, e⟩ := hv' j hj (by simp; omega) (by omega)
  obtain ⟨f', hf', e'⟩ := hv j (by omega) (by omega) (by omega)
  rw [hf] at hf'
  cases hf'
  rw [e, List.getElem_set, List.getElem_set]
  by_cases hij : i = j
  · subst hij
    rw [if_pos rfl, if_pos rfl, show resp[i] + BitVec.ofNat 32 (2 ^ (32 - b)) * k - qp.rhs[i] =
      (resp[i] - qp.rhs[i]) + BitVec.ofNat 32 (2 ^ (32 - b)) * k by
        rw [BitVec.sub_eq_add_neg, BitVec.sub_eq_add_neg, BitVec.add_assoc, BitVec.add_assoc,
          BitVec.add_comm (BitVec.ofNat 32 (2 ^ (32 - b)) * k)],
      decode_shift hb1 hb, e', BitVec.toNat_ofNat,
      Nat.mod_eq_of_lt (lt_trans (Nat.mod_lt _ (Nat.two_pow_pos b)) h2b), Nat.mod_add_mod, Nat.mod_add_mod,
      Nat.add_right_comm]
  · rw [if_neg hij, if_neg hij, e']

/-- Concrete case: 12-bit elements in two 10-bit columns; the response of three coordinates is parsed (the third
ignored), tampering with coordinate 1 by `5 * D` turns digit 3 into 8, and one coordinate is too few. -/
example :
    let qp : QueryParams Unit := { lhs := [1#32], rhs := [100#32, 200#32], elemSize := 12, plaintextBits := 10,
                                   extraParams := none, used := true }
    let resp := [100#32 + 4194304#32 * 7#32 + 9#32, 200#32 + 4194304#32 * 3#32 - 9#32, 77#32]
    qp.parseIndexRow .debug resp = .ok [7#32, 3#32] ∧
    qp.parseIndexRow .debug (resp.set 1 (resp[1] + 4194304#32 * 5#32)) = .ok [7#32, 8#32] ∧
    qp.parseIndexRow .debug (resp.take 1) = .panic := by
  decide +kernel

end Chalamet
