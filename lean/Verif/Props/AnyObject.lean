import Verif.Props.Client
import Verif.Props.Foreign
import Verif.Props.Serde

/-!
# C104: what the operations do with any object whatsoever

Shards and client objects can be loaded from anywhere (C96, C97), so their fields need not fit together. These theorems say what
answering, asking and parsing do for every value of the fields; only the fixed-size seeds have their size.
-/

namespace Chalamet
open Spec

theorem mapRes_range_bad {β : Type} {f : Nat → Res β} {n : Nat} {good : Nat → Prop}
    (hg : ∀ i < n, good i → ∃ y, f i = .ok y) (hb : ∀ i < n, ¬ good i → f i = .panic) (h : ∃ i < n, ¬ good i) :
    mapRes f (List.range n) = .panic := by
  classical
  have h' : ∃ i, i < n ∧ ¬ good i := h
  obtain ⟨h1, h2⟩ := Nat.find_spec h'
  refine mapRes_range_panic (k := Nat.find h') h1 ?_ (hb _ h1 h2)
  intro i hi
  apply hg i (by omega)
  by_contra hc
  exact Nat.find_min h' hi ⟨by omega, hc⟩

/-- The shape a matrix must have for a query to be answered. -/
def Spec.Answerable (entries : List (List U32)) (T b : Nat) (q : List U32) : Prop :=
  b ≠ 0 ∧ width T b ≤ entries.length ∧ ∀ c ∈ entries.take (width T b), c.length = q.length

theorem respond_any {f : Nat → Res U32} {entries : List (List U32)} {T b : Nat} {q : List U32}
    (hf : ∀ j, f j = if h : j < entries.length then (if q.length = entries[j].length then .ok (dot q entries[j]) else .panic)
      else .panic) :
    (Answerable entries T b q → (getRowWidth T b >>= fun w => mapRes f (List.range w)) =
      .ok ((entries.take (width T b)).map fun c => dot q c)) ∧
    (¬ Answerable entries T b q → (getRowWidth T b >>= fun w => mapRes f (List.range w)) = .panic) := by
  rcases Nat.eq_zero_or_pos b with rfl | hb
  · exact ⟨fun h => absurd rfl h.1, fun _ => rfl⟩
  rw [show getRowWidth T b = .ok (width T b) from getRowWidth_ok hb, Res.bind_ok]
  constructor
  · rintro ⟨-, hw, hc⟩
    have : (entries.take (width T b)).map (fun c => dot q c) =
        (List.range (width T b)).map fun j => dot q (entries.getD j []) := by
      apply List.ext_getElem
      · simp [hw]
      · intro j h1 h2
        have hj : j < width T b := by simpa using h2
        simp only [List.getElem_map, List.getElem_take, List.getElem_range]
        rw [getD_lt (by omega)]
    rw [this]
    apply mapRes_ok_of_forall
    intro j hj
    have hj : j < width T b := List.mem_range.1 hj
    have hl : entries[j].length = q.length := hc _ (by
      rw [List.mem_take_iff_getElem]
      exact ⟨j, by omega, rfl⟩)
    rw [hf j, dif_pos (by omega), if_pos (by omega), getD_lt (by omega)]
  · intro hn
    refine mapRes_range_bad (good := fun j => ∃ h : j < entries.length, q.length = entries[j].length) ?_ ?_ ?_
    · rintro j - ⟨h1, h2⟩
      exact ⟨_, by rw [hf j, dif_pos h1, if_pos h2]⟩
    · intro j _ hg
      rw [hf j]
      split
      · rename_i h
        rw [if_neg fun e => hg ⟨h, e⟩]
      · rfl
    · by_contra hc
      push Not at hc
      apply hn
      refine ⟨by omega, ?_, ?_⟩
      · by_contra hlt
        obtain ⟨h, _⟩ := hc entries.length (by omega)
        omega
      · intro c hcm
        obtain ⟨j, hj, rfl⟩ := List.mem_take_iff_getElem.1 hcm
        obtain ⟨h, e⟩ := hc j (by omega)
        exact e.symm

/-- **C104 (answering, index).** For every shard object and query: `respond` returns the serialised inner products of the query
with the first `⌈elem_size / plaintext_bits⌉` columns if `plaintext_bits` is not zero and these columns exist and have the length
of the query, and panics otherwise; it never returns an error. The number `m` of the database and the published parameters play
no part. -/
theorem C104_respond (s : Shard) (q : List U32) :
    (Answerable s.db.entries s.db.elemSize s.db.plaintextBits q → s.respond q =
      .ok (bincodeSerialize ((s.db.entries.take (width s.db.elemSize s.db.plaintextBits)).map fun c => dot q c))) ∧
    (¬ Answerable s.db.entries s.db.elemSize s.db.plaintextBits q → s.respond q = .panic) := by
  have h := respond_any (f := fun i => s.db.vecMult q i) (entries := s.db.entries) (T := s.db.elemSize)
    (b := s.db.plaintextBits) (q := q) (by
      intro j
      unfold IndexDatabase.vecMult
      by_cases hj : j < s.db.entries.length
      · rw [rd_ok hj, Res.bind_ok, dif_pos hj]
        by_cases he : q.length = s.db.entries[j].length
        · rw [if_neg (by simpa using he), if_pos he, vecMult_ok he]
          rfl
        · rw [if_pos he, if_neg he]
      · rw [dif_neg hj, rd_panic (by omega)]
        rfl)
  have e : s.respond q = ((getRowWidth s.db.elemSize s.db.plaintextBits >>= fun w =>
      mapRes (fun i => s.db.vecMult q i) (List.range w)) >>= fun r => .ok (bincodeSerialize r)) := rfl
  rw [e]
  exact ⟨fun ha => by rw [h.1 ha]; rfl, fun ha => by rw [h.2 ha]; rfl⟩

/-- **C104 (answering, keywords).** The same for every key-value shard object. -/
theorem C104_kv_respond (s : KVShard) (q : List U32) :
    (Answerable s.db.entries s.db.elemSize s.db.plaintextBits q → s.respond q =
      .ok (bincodeSerialize ((s.db.entries.take (width s.db.elemSize s.db.plaintextBits)).map fun c => dot q c))) ∧
    (¬ Answerable s.db.entries s.db.elemSize s.db.plaintextBits q → s.respond q = .panic) := by
  have h := respond_any (f := fun i => s.db.vecMult q i) (entries := s.db.entries) (T := s.db.elemSize)
    (b := s.db.plaintextBits) (q := q) (by
      intro j
      unfold KVDatabase.vecMult
      by_cases hj : j < s.db.entries.length
      · rw [rd_ok hj, Res.bind_ok, dif_pos hj]
        by_cases he : q.length = s.db.entries[j].length
        · rw [if_pos he, vecMult_ok he]
          rfl
        · rw [if_neg he, vecMult_err he]
          rfl
      · rw [dif_neg hj, rd_panic (by omega)]
        rfl)
  have e : s.respond q = ((getRowWidth s.db.elemSize s.db.plaintextBits >>= fun w =>
      mapRes (fun i => s.db.vecMult q i) (List.range w)) >>= fun r => .ok (bincodeSerialize r)) := rfl
  rw [e]
  exact ⟨fun ha => by rw [h.1 ha]; rfl, fun ha => by rw [h.2 ha]; rfl⟩

/-! ## Client objects -/

theorem scaling_any (prof : Profile) (b : Nat) :
    (32 ≤ b % 2 ^ 32 → getRoundingFactor prof b = .panic) ∧
    (b % 2 ^ 32 = 0 → getRoundingFactor prof b = .ok 0#32 ∧ getRoundingFloor prof b = .ok 0#32 ∧ getPlaintextSize prof b = .ok 1#32) ∧
    (1 ≤ b % 2 ^ 32 → b % 2 ^ 32 ≤ 31 →
      getRoundingFactor prof b = .ok (BitVec.ofNat 32 (2 ^ (32 - b % 2 ^ 32))) ∧
      getRoundingFloor prof b = .ok (BitVec.ofNat 32 (2 ^ (31 - b % 2 ^ 32))) ∧
      getPlaintextSize prof b = .ok (BitVec.ofNat 32 (2 ^ (b % 2 ^ 32)))) := by
  obtain ⟨h1, h2, h3⟩ := C19_truncated prof b
  rw [h1, h2, h3]
  refine ⟨fun h => C19_too_many_bits prof _ h (Nat.mod_lt _ (by norm_num)), fun h => ?_, fun h1 h2 =>
    ⟨getRoundingFactor_ok h2, getRoundingFloor_ok h1 h2, getPlaintextSize_ok h2⟩⟩
  rw [h]
  refine ⟨by cases prof <;> decide +kernel, by cases prof <;> decide +kernel, by cases prof <;> decide +kernel⟩

/-- **C104 (asking for an index).** For every client object and index: a used object returns the reuse error and is not changed; a
fresh one is spent, and panics if `plaintext_bits` modulo `2^32` is `32` or more or the index is beyond the mask; otherwise the
outcome is the mask with `D` added at the index, or the overflow error, where `D` is `2^(32-b)`, and `0` if `b = 0`. -/
theorem C104_index_query (prof : Profile) (qp : QueryParams Unit) (i : Nat) :
    let b := qp.plaintextBits % 2 ^ 32
    let D := if b = 0 then 0 else 2 ^ (32 - b)
    (qp.used = true → qp.generateIndexQuery prof i = (qp, .err .queryParamsReused)) ∧
    (qp.used = false → (qp.generateIndexQuery prof i).1 = { qp with used := true } ∧
      (32 ≤ b ∨ qp.lhs.length ≤ i → (qp.generateIndexQuery prof i).2 = .panic) ∧
      (b ≤ 31 → ∀ hi : i < qp.lhs.length,
        (qp.lhs[i].toNat + D < 2 ^ 32 →
          (qp.generateIndexQuery prof i).2 = .ok (qp.lhs.set i (qp.lhs[i] + BitVec.ofNat 32 D))) ∧
        (2 ^ 32 ≤ qp.lhs[i].toNat + D → (qp.generateIndexQuery prof i).2 = .err .overflownAdd))) := by
  intro b D
  obtain ⟨s1, s2, s3⟩ := scaling_any prof qp.plaintextBits
  refine ⟨fun hu => by simp [QueryParams.generateIndexQuery, hu], fun hu => ?_⟩
  have e : qp.generateIndexQuery prof i = ({ qp with used := true }, indexQueryBody prof qp i) := by
    simp [QueryParams.generateIndexQuery, hu]
  rw [e]
  have hD : b ≤ 31 → getRoundingFactor prof qp.plaintextBits = .ok (BitVec.ofNat 32 D) ∧ (BitVec.ofNat 32 D).toNat = D := by
    intro hb
    rcases Nat.eq_zero_or_pos b with h0 | h0
    · have : D = 0 := if_pos h0
      rw [this]
      exact ⟨(s2 h0).1, rfl⟩
    · have : D = 2 ^ (32 - b) := if_neg (by omega)
      rw [this]
      exact ⟨(s3 h0 hb).1, toNat_factor h0⟩
  refine ⟨rfl, ?_, ?_⟩
  · intro h
    show indexQueryBody prof qp i = .panic
    unfold indexQueryBody
    rcases Nat.lt_or_ge b 32 with hb | hb
    · rcases h with h | h
      · omega
      · rw [(hD (by omega)).1, Res.bind_ok, rd_panic h]
        rfl
    · rw [s1 hb]
      rfl
  · intro hb hi
    obtain ⟨h1, h2⟩ := hD hb
    show (_ → indexQueryBody prof qp i = _) ∧ (_ → indexQueryBody prof qp i = _)
    unfold indexQueryBody
    rw [h1, Res.bind_ok, rd_ok hi, Res.bind_ok, h2]
    exact ⟨fun h => by rw [if_pos h, wr_ok hi], fun h => by rw [if_neg (by omega)]⟩

/-- **C104 (asking for a key).** For every client object and key: a used object returns the reuse error and is not changed; a fresh
one is spent, and panics if `plaintext_bits` modulo `2^32` is `32` or more, returns an error if it has no filter parameters, and
otherwise does what the object with `plaintext_bits` reduced modulo `2^32` does (C73). -/
theorem C104_kv_query (prof : Profile) (qp : QueryParams FilterParams) (key : Key) :
    let b := qp.plaintextBits % 2 ^ 32
    (qp.used = true → qp.generateKvQuery prof key = (qp, .err .queryParamsReused)) ∧
    (qp.used = false → (qp.generateKvQuery prof key).1 = { qp with used := true } ∧
      (32 ≤ b → (qp.generateKvQuery prof key).2 = .panic) ∧
      (b ≤ 31 → qp.extraParams = none → (qp.generateKvQuery prof key).2 = .err .noFilterParams) ∧
      (qp.generateKvQuery prof key).2 = (QueryParams.generateKvQuery prof { qp with plaintextBits := b } key).2) := by
  intro b
  obtain ⟨s1, s2, s3⟩ := scaling_any prof qp.plaintextBits
  refine ⟨fun hu => by simp [QueryParams.generateKvQuery, hu], fun hu => ?_⟩
  have e : qp.generateKvQuery prof key = ({ qp with used := true }, kvQueryBody prof qp key) := by
    simp [QueryParams.generateKvQuery, hu]
  have e' : (QueryParams.generateKvQuery prof { qp with plaintextBits := b } key).2 =
      kvQueryBody prof { qp with plaintextBits := b } key := by
    simp [QueryParams.generateKvQuery, hu]
  rw [e, e']
  refine ⟨rfl, ?_, ?_, ?_⟩
  · intro hb
    show kvQueryBody prof qp key = _
    unfold kvQueryBody
    rw [s1 hb]
    rfl
  · intro hb hn
    show kvQueryBody prof qp key = _
    unfold kvQueryBody
    obtain ⟨d, hd⟩ : ∃ d, getRoundingFactor prof qp.plaintextBits = .ok d := by
      rcases Nat.eq_zero_or_pos b with h0 | h0
      · exact ⟨_, (s2 h0).1⟩
      · exact ⟨_, (s3 h0 hb).1⟩
    rw [hd, Res.bind_ok, hn]
  · show kvQueryBody prof qp key = _
    unfold kvQueryBody
    simp only
    rw [(C19_truncated prof qp.plaintextBits).2.1]

/-- **C104 (parsing, index).** For every client object and response, with `b` the plaintext bits modulo `2^32` and `w` the number of
digits: parsing panics if `plaintext_bits` is zero, `b` is `32` or more, `b` is zero and there is a digit to parse, or the response or
the object's right-hand side has fewer than `w` words; otherwise it returns `w` digits, each the multiple of `2^(32-b)` nearest to
the difference. Whether the object was used plays no part, and no error is returned. -/
theorem C104_parse (prof : Profile) (qp : QueryParams Unit) (resp : List U32) :
    let b := qp.plaintextBits % 2 ^ 32
    let w := width qp.elemSize qp.plaintextBits
    let bad := qp.plaintextBits = 0 ∨ 32 ≤ b ∨ (b = 0 ∧ 0 < w) ∨ resp.length < w ∨ qp.rhs.length < w
    (bad → qp.parseIndexRow prof resp = .panic) ∧
    (¬ bad → ∃ row, qp.parseIndexRow prof resp = .ok row ∧ row.length = w ∧
      ∀ i (_ : i < row.length) (h1 : i < resp.length) (h2 : i < qp.rhs.length),
        row[i].toNat = decode b (resp[i] - qp.rhs[i])) := by
  intro b w bad
  obtain ⟨s1, s2, s3⟩ := scaling_any prof qp.plaintextBits
  rcases Nat.eq_zero_or_pos qp.plaintextBits with h0 | h0
  · exact ⟨fun _ => (C19_zero_bits prof).2 qp resp h0, fun hb => absurd (Or.inl h0) hb⟩
  by_cases h32 : 32 ≤ b
  · refine ⟨fun _ => ?_, fun hb => absurd (Or.inr (Or.inl h32)) hb⟩
    unfold QueryParams.parseIndexRow
    rw [s1 h32]
    rfl
  by_cases hb0 : b = 0
  · obtain ⟨a1, a2, a3⟩ := s2 hb0
    have e : qp.parseIndexRow prof resp = mapRes (fun i => rd resp i >>= fun left => rd qp.rhs i >>= fun right =>
        roundCoord prof 0#32 0#32 left right >>= fun r => modPlain r 1#32) (List.range w) := by
      unfold QueryParams.parseIndexRow
      rw [a1, a2, a3]
      simp only [Res.bind_ok]
      rw [show getRowWidth qp.elemSize qp.plaintextBits = .ok (width qp.elemSize qp.plaintextBits) from getRowWidth_ok h0,
        Res.bind_ok]
    rw [e]
    constructor
    · intro hbad
      have hw : 0 < w := by
        rcases hbad with h | h | h | h | h <;> omega
      refine mapRes_range_panic (k := 0) hw (fun i hi => absurd hi (by omega)) ?_
      rcases Nat.eq_zero_or_pos resp.length with h | h
      · rw [rd_panic (by omega)]; rfl
      · rw [rd_ok h, Res.bind_ok]
        rcases Nat.eq_zero_or_pos qp.rhs.length with h' | h'
        · rw [rd_panic (by omega)]; rfl
        · rw [rd_ok h', Res.bind_ok]
          rfl
    · intro hok
      have hw : w = 0 := by
        by_contra hne
        exact hok (Or.inr (Or.inr (Or.inl ⟨hb0, by omega⟩)))
      rw [hw]
      exact ⟨[], rfl, rfl, fun i hi => absurd hi (by simp)⟩
  · have hb1 : 1 ≤ b := by omega
    have hb : b ≤ 31 := by omega
    obtain ⟨a1, a2, a3⟩ := s3 hb1 hb
    have h2b : 2 ^ b < 2 ^ 32 := Nat.pow_lt_pow_right (by omega) (by omega)
    have e : qp.parseIndexRow prof resp = mapRes (fun i => rd resp i >>= fun left => rd qp.rhs i >>= fun right =>
        roundCoord prof (BitVec.ofNat 32 (2 ^ (32 - b))) (BitVec.ofNat 32 (2 ^ (31 - b))) left right >>= fun r =>
          modPlain r (BitVec.ofNat 32 (2 ^ b))) (List.range w) := by
      unfold QueryParams.parseIndexRow
      rw [a1, a2, a3]
      simp only [Res.bind_ok]
      rw [show getRowWidth qp.elemSize qp.plaintextBits = .ok (width qp.elemSize qp.plaintextBits) from getRowWidth_ok h0,
        Res.bind_ok]
    rw [e]
    have hcoord : ∀ i (h1 : i < resp.length) (h2 : i < qp.rhs.length),
        (rd resp i >>= fun left => rd qp.rhs i >>= fun right =>
          roundCoord prof (BitVec.ofNat 32 (2 ^ (32 - b))) (BitVec.ofNat 32 (2 ^ (31 - b))) left right
            >>= fun r => modPlain r (BitVec.ofNat 32 (2 ^ b))) =
        .ok (BitVec.ofNat 32 (decode b (resp[i] - qp.rhs[i]))) := by
      intro i h1 h2
      rw [rd_ok h1, Res.bind_ok, rd_ok h2, Res.bind_ok, parseCoord_any hb1 hb]
    constructor
    · intro hbad
      refine mapRes_range_bad (good := fun i => i < resp.length ∧ i < qp.rhs.length) (fun i _ hg => ⟨_, hcoord i hg.1 hg.2⟩) ?_ ?_
      · intro i _ hg
        by_cases h1 : i < resp.length
        · rw [rd_ok h1, Res.bind_ok, rd_panic (by omega)]; rfl
        · rw [rd_panic (by omega)]; rfl
      · rcases hbad with h | h | h | h | h
        · omega
        · omega
        · omega
        · exact ⟨resp.length, h, fun hc => by omega⟩
        · exact ⟨qp.rhs.length, h, fun hc => by omega⟩
    · intro hok
      have h1 : w ≤ resp.length := by
        by_contra hc
        exact hok (Or.inr (Or.inr (Or.inr (Or.inl (by omega)))))
      have h2 : w ≤ qp.rhs.length := by
        by_contra hc
        exact hok (Or.inr (Or.inr (Or.inr (Or.inr (by omega)))))
      refine ⟨(List.range w).map fun i => BitVec.ofNat 32 (decode b (resp.getD i 0#32 - qp.rhs.getD i 0#32)), ?_, by simp, ?_⟩
      · apply mapRes_ok_of_forall
        intro i hi
        have hi' : i < w := List.mem_range.1 hi
        rw [hcoord i (by omega) (by omega), getD_lt (by omega), getD_lt (by omega)]
      · intro i hi g1 g2
        rw [List.getElem_map, List.getElem_range, BitVec.toNat_ofNat,
          Nat.mod_eq_of_lt (lt_trans (decode_lt _) h2b), getD_lt g1, getD_lt g2]

/-- **C104 (parsing, keywords).** The same for keyword objects, which in addition return an error if they have no filter parameters
(and `b` is at most `31`), and add the key's fingerprint to each digit. -/
theorem C104_kv_parse (prof : Profile) (qp : QueryParams FilterParams) (resp : List U32) (key : Key) :
    let b := qp.plaintextBits % 2 ^ 32
    let w := width qp.elemSize qp.plaintextBits
    let bad := qp.plaintextBits = 0 ∨ (b = 0 ∧ 0 < w) ∨ resp.length < w ∨ qp.rhs.length < w
    (32 ≤ b → qp.parseKvRow prof resp key = .panic) ∧
    (b ≤ 31 → qp.extraParams = none → qp.parseKvRow prof resp key = .err .noFilterParams) ∧
    (b ≤ 31 → ∀ fp, qp.extraParams = some fp → fp.seed.length = 32 →
      (bad → qp.parseKvRow prof resp key = .panic) ∧
      (¬ bad → ∃ row, qp.parseKvRow prof resp key = .ok row ∧ row.length = w ∧
        ∀ i (_ : i < row.length) (h1 : i < resp.length) (h2 : i < qp.rhs.length),
          ∃ f, BinaryFuseP32.getKeyFingerprint key fp.seed (BitVec.ofNat 64 i) = .ok f ∧
            row[i].toNat = (decode b (resp[i] - qp.rhs[i]) + f.toNat) % 2 ^ b)) := by
  intro b w bad
  obtain ⟨s1, s2, s3⟩ := scaling_any prof qp.plaintextBits
  refine ⟨fun h32 => ?_, fun hb hn => ?_, fun hb fp hfp hseed => ?_⟩
  · unfold QueryParams.parseKvRow
    rw [s1 h32]
    rfl
  · unfold QueryParams.parseKvRow
    rcases Nat.eq_zero_or_pos b with h0 | h0
    · obtain ⟨a1, a2, a3⟩ := s2 h0
      rw [a1, a2, a3, hn]
      rfl
    · obtain ⟨a1, a2, a3⟩ := s3 h0 hb
      rw [a1, a2, a3, hn]
      rfl
  obtain ⟨h, hh⟩ := mix256_total hseed key
  have hfpr : ∀ i : Nat, BinaryFuseP32.getKeyFingerprint key fp.seed (BitVec.ofNat 64 i) =
      .ok (mix h (BitVec.ofNat 64 i)) := by
    intro i
    simp [BinaryFuseP32.getKeyFingerprint, hh]
  by_cases hb0 : b = 0
  · obtain ⟨a1, a2, a3⟩ := s2 hb0
    have e : qp.parseKvRow prof resp key = (getRowWidth qp.elemSize qp.plaintextBits >>= fun w => mapRes (fun i =>
        rd resp i >>= fun left => rd qp.rhs i >>= fun right =>
        roundCoord prof 0#32 0#32 left right >>= fun r => fp.unmaskValue r key (BitVec.ofNat 64 i) >>= fun u =>
          modPlain u 1#32) (List.range w)) := by
      unfold QueryParams.parseKvRow
      rw [a1, a2, a3, hfp]
      simp only [Res.bind_ok]
    rw [e]
    rcases Nat.eq_zero_or_pos qp.plaintextBits with h0 | h0
    · refine ⟨fun _ => ?_, fun hb => absurd (Or.inl h0) hb⟩
      rw [h0]
      rfl
    rw [show getRowWidth qp.elemSize qp.plaintextBits = .ok (width qp.elemSize qp.plaintextBits) from getRowWidth_ok h0,
        Res.bind_ok]
    constructor
    · intro hbad
      have hw : 0 < w := by
        rcases hbad with h | h | h | h <;> omega
      refine mapRes_range_panic (k := 0) hw (fun i hi => absurd hi (by omega)) ?_
      rcases Nat.eq_zero_or_pos resp.length with h | h
      · rw [rd_panic (by omega)]; rfl
      · rw [rd_ok h, Res.bind_ok]
        rcases Nat.eq_zero_or_pos qp.rhs.length with h' | h'
        · rw [rd_panic (by omega)]; rfl
        · rw [rd_ok h', Res.bind_ok]
          rfl
    · intro hok
      have hw : width qp.elemSize qp.plaintextBits = 0 := by
        by_contra hne
        exact hok (Or.inr (Or.inl ⟨hb0, by omega⟩))
      rw [hw]
      exact ⟨[], rfl, by show 0 = width _ _; omega, fun i hi => absurd hi (by simp)⟩
  · have hb1 : 1 ≤ b := by omega
    have h0 : 0 < qp.plaintextBits := by
      rcases Nat.eq_zero_or_pos qp.plaintextBits with h0 | h0
      · exact absurd (show qp.plaintextBits % 2 ^ 32 = 0 by rw [h0]; rfl) hb0
      · exact h0
    obtain ⟨a1, a2, a3⟩ := s3 hb1 hb
    have h2b : 2 ^ b < 2 ^ 32 := Nat.pow_lt_pow_right (by omega) (by omega)
    have e : qp.parseKvRow prof resp key = mapRes (fun i => rd resp i >>= fun left => rd qp.rhs i >>= fun right =>
        roundCoord prof (BitVec.ofNat 32 (2 ^ (32 - b))) (BitVec.ofNat 32 (2 ^ (31 - b))) left right >>= fun r =>
          fp.unmaskValue r key (BitVec.ofNat 64 i) >>= fun u => modPlain u (BitVec.ofNat 32 (2 ^ b))) (List.range w) := by
      unfold QueryParams.parseKvRow
      rw [a1, a2, a3, hfp]
      simp only [Res.bind_ok]
      rw [show getRowWidth qp.elemSize qp.plaintextBits = .ok (width qp.elemSize qp.plaintextBits) from getRowWidth_ok h0,
        Res.bind_ok]
    rw [e]
    have hcoord : ∀ i (h1 : i < resp.length) (h2 : i < qp.rhs.length),
        (rd resp i >>= fun left => rd qp.rhs i >>= fun right =>
          roundCoord prof (BitVec.ofNat 32 (2 ^ (32 - b))) (BitVec.ofNat 32 (2 ^ (31 - b))) left right
            >>= fun r => fp.unmaskValue r key (BitVec.ofNat 64 i)
            >>= fun u => modPlain u (BitVec.ofNat 32 (2 ^ b))) =
        .ok (BitVec.ofNat 32 ((decode b (resp[i] - qp.rhs[i]) + (mix h (BitVec.ofNat 64 i)).toNat) % 2 ^ b)) :=
      fun i h1 h2 => kvCoord_any hb1 hb hh i h1 h2
    constructor
    · intro hbad
      refine mapRes_range_bad (good := fun i => i < resp.length ∧ i < qp.rhs.length) (fun i _ hg => ⟨_, hcoord i hg.1 hg.2⟩) ?_ ?_
      · intro i _ hg
        by_cases h1 : i < resp.length
        · rw [rd_ok h1, Res.bind_ok, rd_panic (by omega)]; rfl
        · rw [rd_panic (by omega)]; rfl
      · rcases hbad with h | h | h | h
        · omega
        · omega
        · exact ⟨resp.length, h, fun hc => by omega⟩
        · exact ⟨qp.rhs.length, h, fun hc => by omega⟩
    · intro hok
      have h1 : w ≤ resp.length := by
        by_contra hc
        exact hok (Or.inr (Or.inr (Or.inl (by omega))))
      have h2 : w ≤ qp.rhs.length := by
        by_contra hc
        exact hok (Or.inr (Or.inr (Or.inr (by omega))))
      refine ⟨(List.range w).map fun i =>
        BitVec.ofNat 32 ((decode b (resp.getD i 0#32 - qp.rhs.getD i 0#32) +
          (mix h (BitVec.ofNat 64 i)).toNat) % 2 ^ b), ?_, by simp, ?_⟩
      · apply mapRes_ok_of_forall
        intro i hi
        have hi' : i < w := List.mem_range.1 hi
        rw [hcoord i (by omega) (by omega), getD_lt (by omega), getD_lt (by omega)]
      · intro i hi g1 g2
        refine ⟨_, hfpr i, ?_⟩
        rw [List.getElem_map, List.getElem_range, BitVec.toNat_ofNat,
          Nat.mod_eq_of_lt (lt_trans (Nat.mod_lt _ (Nat.two_pow_pos b)) h2b), getD_lt g1, getD_lt g2]


/-! ## Objects that meet these hypotheses -/

/-- A loaded shard whose second column is too short: queries of length 2 and 1 both panic. -/
example : let s : Shard := ⟨⟨[[1, 2], [3]], 2, 16, 8⟩, ⟨1, 7, [], [], 9, 3⟩⟩
    s.respond [1, 1] = .panic ∧ s.respond [1] = .panic :=
  ⟨(C104_respond _ _).2 (by simp [Spec.Answerable, width]), (C104_respond _ _).2 (by simp [Spec.Answerable, width])⟩

/-- The same shard with `elem_size` 8 reads its first column only, and answers. -/
example : let s : Shard := ⟨⟨[[1, 2], [3]], 0, 8, 8⟩, ⟨1, 7, [], [], 9, 3⟩⟩
    s.respond [5, 6] = .ok (bincodeSerialize [17]) :=
  (C104_respond _ _).1 (by simp [Spec.Answerable, width])

/-- A loaded client object with `plaintext_bits = 2^32 + 8` asks as one with 8 does. -/
example (prof : Profile) : let qp : QueryParams Unit := ⟨[1, 2], [], 8, 2 ^ 32 + 8, none, false⟩
    (qp.generateIndexQuery prof 1).2 = .ok [1, 2 + BitVec.ofNat 32 (2 ^ 24)] := by
  have h := (((C104_index_query prof ⟨[1, 2], [], 8, 2 ^ 32 + 8, none, false⟩ 1).2 rfl).2.2 (by decide) (by decide)).1 (by decide)
  exact h

/-- A loaded keyword object without filter parameters can neither ask nor parse, and is spent by asking. -/
example (prof : Profile) (key : Key) (resp : List U32) : let qp : QueryParams FilterParams := ⟨[1], [2], 8, 8, none, false⟩
    qp.generateKvQuery prof key = ({ qp with used := true }, .err .noFilterParams) ∧
    qp.parseKvRow prof resp key = .err .noFilterParams := by
  intro qp
  obtain ⟨h1, -, h2, -⟩ := (C104_kv_query prof qp key).2 rfl
  exact ⟨Prod.ext h1 (h2 (by decide) rfl), (C104_kv_parse prof qp resp key).2.1 (by decide) rfl⟩

/-- A used, too wide response is parsed all the same; a short one panics. -/
example (prof : Profile) : let qp : QueryParams Unit := ⟨[], [2], 8, 8, none, true⟩
    (∃ row, qp.parseIndexRow prof [1, 2, 3] = .ok row ∧ row.length = 1) ∧ qp.parseIndexRow prof [] = .panic := by
  intro qp
  constructor
  · obtain ⟨row, h1, h2, -⟩ := (C104_parse prof qp [1, 2, 3]).2 (by simp [qp, width])
    exact ⟨row, h1, h2.trans (by decide)⟩
  · exact (C104_parse prof qp []).1 (by simp [qp, width])

end Chalamet
