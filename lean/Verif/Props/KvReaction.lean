import Verif.Props.Reaction
import Verif.Props.Witnesses

/-!
# C103 for keyword queries: a client that shows a parsed row can show which key it asked for

What a client parses for a key contains masks computed from the key. Published columns of zeros and a response of zeros leave
nothing but the masks; the trap columns of `Reaction` leave the secret plus the masks.
-/

namespace Chalamet
open Spec

/-! ## Specification -/

/-- The masks of a key with hash `h`: the fingerprint for each column, modulo the plaintext size. -/
def Spec.keyMasks (h : U64) (b w : Nat) : List U32 :=
  (List.range w).map fun j => BitVec.ofNat 32 ((mix h (BitVec.ofNat 64 j)).toNat % 2 ^ b)

/-- The masks a key has under published filter parameters. -/
def Spec.masksOf (fp : FilterParams) (b w : Nat) (key : Key) : Option (List U32) :=
  match mix256 key fp.seed with
  | .ok h => some (keyMasks h b w)
  | _ => none

/-- The attacker looks for a parsed row among the masks of the keys it considers possible. -/
def Spec.readKey (fp : FilterParams) (b w : Nat) (cands : List Key) (row : List U32) : Option Key :=
  cands.find? fun k => masksOf fp b w k = some row

/-- Taking the masks off a row: subtraction modulo `2^b`. -/
def Spec.takeOff (b : Nat) (masks row : List U32) : List U32 :=
  List.zipWith (fun m x => BitVec.ofNat 32 ((x.toNat + (2 ^ b - m.toNat)) % 2 ^ b)) masks row

/-- The slots as the attacker reads them off a query once the secret is known: where the query minus `s·A` is not ternary. -/
def Spec.readSlots (cp : List (List U32)) (s q : List U32) : List Nat :=
  (List.range cp.length).filter fun j => ¬ IsTernary (q.getD j 0#32 - dot s (cp.getD j []))

/-! ## Proofs -/

theorem parseKvRow_val {prof : Profile} {qp : QueryParams FilterParams} {fp : FilterParams} {key : Key} {h : U64} {resp : List U32}
    {y : Nat → U32} {b w : Nat} (h1 : 1 ≤ b) (hb : b ≤ 31) (hbq : qp.plaintextBits = b) (hx : qp.extraParams = some fp)
    (hh : mix256 key fp.seed = .ok h) (hw : width qp.elemSize b = w) (hrhs : w ≤ qp.rhs.length)
    (hresp : resp = (List.range w).map fun j =>
      BitVec.ofNat 32 (2 ^ (32 - b)) * y j + qp.rhs.getD j 0#32) :
    qp.parseKvRow prof resp key =
      .ok ((List.range w).map fun j => BitVec.ofNat 32 (((y j).toNat + (mix h (BitVec.ofNat 64 j)).toNat) % 2 ^ b)) := by
  unfold QueryParams.parseKvRow
  rw [hbq, getRoundingFactor_ok hb, getRoundingFloor_ok h1 hb, getPlaintextSize_ok hb,
    getRowWidth_ok (by omega), hx]
  simp only [Res.bind_ok]
  rw [show (qp.elemSize + b - 1) / b = w from hw]
  apply mapRes_ok_of_forall
  intro j hj
  rw [List.mem_range] at hj
  rw [rd_of_some (a := BitVec.ofNat 32 (2 ^ (32 - b)) * y j + qp.rhs.getD j 0#32)
      (by rw [hresp]; simp [hj]),
    rd_of_some (a := qp.rhs.getD j 0#32) (by
      rw [List.getD_eq_getElem?_getD, List.getElem?_eq_getElem (by omega)]; rfl)]
  simp only [Res.bind_ok, FilterParams.unmaskValue, BinaryFuseP32.getKeyFingerprint, hh]
  have := parseKvCoord (prof := prof) h1 hb (y j) 0#32 (qp.rhs.getD j 0#32) (mix h (BitVec.ofNat 64 j))
  rw [BitVec.add_zero] at this
  rw [this]
  have hc : carry b 0#32 = 0 := by simp [carry]
  rw [hc, Nat.add_zero]

/-- What the parameters generated from published ones contain. -/
theorem genKvParams_any {cp : List (List U32)} {params : KVParams} {tape tape' : List U32} {qp : QueryParams FilterParams}
    (hqp : generateKvQueryParams cp params tape = .ok (qp, tape')) :
    ∃ s t1 e, randomTernaryVector params.dim tape = .ok (s, t1) ∧ randomTernaryVector cp.length t1 = .ok (e, tape') ∧
      qp = ⟨vadd (cp.map fun a => dot s a) e, params.rhs.map fun c => dot s c, params.elemSize, params.plaintextBits,
        some params.filterParams, false⟩ := by
  unfold generateKvQueryParams at hqp
  obtain ⟨⟨s, t1⟩, hs, hqp⟩ := Res.bind_eq_ok.1 hqp
  obtain ⟨⟨lhs, t2⟩, hm, hqp⟩ := Res.bind_eq_ok.1 hqp
  obtain ⟨r, hr, hqp⟩ := Res.bind_eq_ok.1 hqp
  simp only [Res.ok.injEq, Prod.mk.injEq] at hqp
  obtain ⟨rfl, rfl⟩ := hqp
  obtain ⟨_, e, he, hlhs⟩ := multLeft_spec.1 hm
  exact ⟨s, t1, e, hs, he, by rw [← hlhs, ← (multRight_eq_ok.1 hr).2]⟩

/-- **C103 (keywords: the row shows the masks).** Published columns of zeros, any public matrix. Whatever the client's randomness
and whatever key it asks for, the row it parses from a response of zeros is the list of masks of the key. -/
theorem C103_kv_row_shows_masks (prof : Profile) (cp : List (List U32)) (params : KVParams) (tape tape' : List U32)
    (qp : QueryParams FilterParams) (hb1 : 1 ≤ params.plaintextBits) (hb : params.plaintextBits ≤ 31)
    (hs : params.filterParams.seed.length = 32)
    (hw : width params.elemSize params.plaintextBits ≤ params.rhs.length)
    (hz : ∀ c ∈ params.rhs, ∀ x ∈ c, x = 0#32)
    (hqp : generateKvQueryParams cp params tape = .ok (qp, tape')) (key : Key) :
    ∃ h, mix256 key params.filterParams.seed = .ok h ∧
      qp.parseKvRow prof (List.replicate (width params.elemSize params.plaintextBits) 0#32) key =
        .ok (keyMasks h params.plaintextBits (width params.elemSize params.plaintextBits)) := by
  obtain ⟨h, hh⟩ := mix256_total hs key
  refine ⟨h, hh, ?_⟩
  obtain ⟨s, t1, e, -, -, rfl⟩ := genKvParams_any hqp
  rw [parseKvRow_val (y := fun _ => 0#32) hb1 hb rfl rfl hh rfl (by simpa using hw)]
  · unfold keyMasks
    simp
  · apply List.ext_getElem
    · simp
    · intro j h1 h2
      have hj : j < params.rhs.length := by simp at h1; omega
      simp only [List.getElem_replicate, List.getElem_map, List.getElem_range]
      rw [getD_lt (by simpa using hj), List.getElem_map, dot_zero_right (hz _ (List.getElem_mem hj))]
      simp

/-- **C103 (keywords: the row shows the key).** Under the same published parameters, an attacker with a list of possible keys, of
which no two have the same masks, finds the key from the parsed row alone; it does not even use the query. -/
theorem C103_kv_row_shows_key (prof : Profile) (cp : List (List U32)) (params : KVParams) (tape tape' : List U32)
    (qp qp' : QueryParams FilterParams) (hb1 : 1 ≤ params.plaintextBits) (hb : params.plaintextBits ≤ 31)
    (hs : params.filterParams.seed.length = 32)
    (hw : width params.elemSize params.plaintextBits ≤ params.rhs.length)
    (hz : ∀ c ∈ params.rhs, ∀ x ∈ c, x = 0#32)
    (hqp : generateKvQueryParams cp params tape = .ok (qp, tape')) (key : Key) (q : List U32)
    (hq : qp.generateKvQuery prof key = (qp', .ok q))
    (cands : List Key) (hc : key ∈ cands)
    (hd : ∀ k ∈ cands, masksOf params.filterParams params.plaintextBits (width params.elemSize params.plaintextBits) k =
      masksOf params.filterParams params.plaintextBits (width params.elemSize params.plaintextBits) key → k = key) :
    ∃ row, qp'.parseKvRow prof (List.replicate (width params.elemSize params.plaintextBits) 0#32) key = .ok row ∧
      readKey params.filterParams params.plaintextBits (width params.elemSize params.plaintextBits) cands row = some key := by
  obtain ⟨h, hh, hrow⟩ := C103_kv_row_shows_masks prof cp params tape tape' qp hb1 hb hs hw hz hqp key
  have hm : masksOf params.filterParams params.plaintextBits (width params.elemSize params.plaintextBits) key =
      some (keyMasks h params.plaintextBits (width params.elemSize params.plaintextBits)) := by
    unfold masksOf
    rw [hh]
  refine ⟨keyMasks h params.plaintextBits (width params.elemSize params.plaintextBits), ?_, ?_⟩
  rotate_left
  · unfold readKey
    cases hf : cands.find? fun k => masksOf params.filterParams params.plaintextBits
        (width params.elemSize params.plaintextBits) k =
          some (keyMasks h params.plaintextBits (width params.elemSize params.plaintextBits)) with
    | none =>
      have := List.find?_eq_none.1 hf key hc
      simp [hm] at this
    | some k =>
      have h1 := List.find?_some hf
      have h2 := List.mem_of_find?_eq_some hf
      rw [hd k h2 (by rw [hm]; simpa using h1)]
  · have hqq : qp'.rhs = qp.rhs ∧ qp'.elemSize = qp.elemSize ∧ qp'.plaintextBits = qp.plaintextBits ∧
        qp'.extraParams = qp.extraParams := by
      unfold QueryParams.generateKvQuery at hq
      split at hq
      · simp at hq
      · simp only [Prod.mk.injEq] at hq
        obtain ⟨rfl, -⟩ := hq
        exact ⟨rfl, rfl, rfl, rfl⟩
    obtain ⟨e1, e2, e3, e4⟩ := hqq
    rw [← hrow]
    unfold QueryParams.parseKvRow
    rw [e1, e2, e3, e4]

theorem takeOff_add {b : Nat} (hb : b ≤ 31) (x m : Nat) :
    BitVec.ofNat 32 (((BitVec.ofNat 32 ((x + m) % 2 ^ b)).toNat + (2 ^ b - (BitVec.ofNat 32 (m % 2 ^ b)).toNat)) % 2 ^ b) =
      BitVec.ofNat 32 (x % 2 ^ b) := by
  have h32 : 2 ^ b ≤ 2 ^ 31 := Nat.pow_le_pow_right (by omega) hb
  have hp : 0 < 2 ^ b := Nat.two_pow_pos b
  have l1 : (x + m) % 2 ^ b < 2 ^ b := Nat.mod_lt _ hp
  have l2 : m % 2 ^ b < 2 ^ b := Nat.mod_lt _ hp
  rw [BitVec.toNat_ofNat, BitVec.toNat_ofNat, Nat.mod_eq_of_lt (a := (x + m) % 2 ^ b) (by omega),
    Nat.mod_eq_of_lt (a := m % 2 ^ b) (by omega)]
  congr 1
  have e : (x + m) % 2 ^ b + (2 ^ b - m % 2 ^ b) ≡ x + (m % 2 ^ b + (2 ^ b - m % 2 ^ b)) [MOD 2 ^ b] := by
    rw [← Nat.add_assoc]
    exact Nat.ModEq.add_right _ ((Nat.mod_modEq _ _).trans (Nat.ModEq.add_left _ (Nat.mod_modEq _ _).symm))
  rw [Nat.add_sub_cancel' l2.le] at e
  have e' : ((x + m) % 2 ^ b + (2 ^ b - m % 2 ^ b)) % 2 ^ b = (x + 2 ^ b) % 2 ^ b := e
  rw [e', Nat.add_mod_right]

/-- **C103 (keywords: the row shows the secret).** Published columns of the attacker's making (the trap columns), any public
matrix. Taking the masks of the right key off the row parsed from a response of zeros leaves the client's secret. -/
theorem C103_kv_row_shows_secret (prof : Profile) (cp : List (List U32)) (params : KVParams) (tape tape' : List U32)
    (qp : QueryParams FilterParams) (hb2 : 2 ≤ params.plaintextBits) (hb : params.plaintextBits ≤ 31)
    (hs : params.filterParams.seed.length = 32)
    (hw : width params.elemSize params.plaintextBits = params.dim)
    (htrap : params.rhs = trapColumns params.plaintextBits params.dim)
    (hqp : generateKvQueryParams cp params tape = .ok (qp, tape')) (key : Key) :
    ∃ s t1 e row masks, randomTernaryVector params.dim tape = .ok (s, t1) ∧
      randomTernaryVector cp.length t1 = .ok (e, tape') ∧ qp.lhs = vadd (cp.map fun a => dot s a) e ∧
      qp.parseKvRow prof (List.replicate params.dim 0#32) key = .ok row ∧
      masksOf params.filterParams params.plaintextBits params.dim key = some masks ∧
      readSecret (takeOff params.plaintextBits masks row) = s := by
  obtain ⟨h, hh⟩ := mix256_total hs key
  obtain ⟨s, t1, e, hs1, he, rfl⟩ := genKvParams_any hqp
  obtain ⟨hsl, hst⟩ := randomTernaryVector_spec hs1
  have hrl : params.rhs.length = params.dim := by rw [htrap]; simp [trapColumns]
  have hrj : ∀ j < params.dim, (params.rhs.map fun c => dot s c).getD j 0#32 =
      BitVec.ofNat 32 (2 ^ (32 - params.plaintextBits)) * s.getD j 0#32 := by
    intro j hj
    rw [← dot_trap hsl hj, htrap, getD_lt (by simpa [trapColumns] using hj)]
    simp [trapColumns]
  refine ⟨s, t1, e, _, _, hs1, he, rfl, parseKvRow_val (y := fun j => -(s.getD j 0#32)) (by omega) hb rfl rfl hh hw
    (by simp [hrl]) ?_, by rw [masksOf, hh], ?_⟩
  · apply List.ext_getElem
    · simp
    · intro j h1 h2
      have hj : j < params.dim := by simpa using h1
      simp only [List.getElem_replicate, List.getElem_map, List.getElem_range]
      rw [hrj j hj, BitVec.mul_neg, BitVec.add_left_neg]
  · unfold readSecret takeOff keyMasks
    apply List.ext_getElem
    · simp [hsl]
    · intro j h1 h2
      simp only [List.getElem_map, List.getElem_range, List.getElem_zipWith]
      rw [takeOff_add hb, getD_lt h2]
      exact readSecret_digit hb2 hb (hst _ (List.getElem_mem h2))

/-- **C103 (keywords: the secret shows the slots).** Digits of 1 to 30 bits. From a query and the secret of its parameters one reads
exactly the three slots of the key. -/
theorem C103_kv_secret_shows_slots (prof : Profile) (cp : List (List U32)) (params : KVParams) (tape tape' s t1 : List U32)
    (qp : QueryParams FilterParams) (key : Key)
    (size segExp cap0 : Nat) (lay : Layout) (hlay : bfLayout size segExp cap0 = .ok lay)
    (hg : params.filterParams.geom = lay.geom) (hs : params.filterParams.seed.length = 32) (hcl : cp.length = lay.arrayLen)
    (hb1 : 1 ≤ params.plaintextBits) (hb : params.plaintextBits ≤ 30)
    (hsec : randomTernaryVector params.dim tape = .ok (s, t1))
    (hqp : generateKvQueryParams cp params tape = .ok (qp, tape')) :
    ∃ slots q, params.filterParams.getHashEvals prof key = .ok slots ∧ slots.length = 3 ∧ slots.Nodup ∧
      (qp.generateKvQuery prof key).2 = .ok q ∧ (readSlots cp s q).Perm slots := by
  obtain ⟨s', t1', e, hs1, he, rfl⟩ := genKvParams_any hqp
  rw [hsec] at hs1
  cases hs1
  obtain ⟨hel, het⟩ := randomTernaryVector_spec he
  have hll : (vadd (cp.map fun a => dot s a) e).length = cp.length := by simp [vadd, hel]
  obtain ⟨slots, q, h1, h2, h3, h4, h5, h6, h7⟩ := C07_kv_query_outcome prof size segExp cap0 lay hlay params.filterParams hg hs
    ⟨vadd (cp.map fun a => dot s a) e, params.rhs.map fun c => dot s c, params.elemSize, params.plaintextBits,
        some params.filterParams, false⟩ (by dsimp only; omega) rfl rfl (by dsimp only; omega) key
  refine ⟨slots, q, h1, h2, h3, h5, ?_⟩
  unfold readSlots
  refine (List.perm_ext_iff_of_nodup (List.Nodup.filter _ List.nodup_range) h3).2 ?_
  intro j
  simp only [List.mem_filter, List.mem_range, decide_eq_true_eq]
  have key1 : ∀ h : j < cp.length, (¬ IsTernary (q.getD j 0#32 - dot s (cp.getD j [])) ↔ j ∈ slots) := by
    intro h
    have e1 := h7 j (by omega)
    dsimp only at e1
    have hj : (vadd (cp.map fun a => dot s a) e).getD j 0#32 = dot s cp[j] + e[j]'(by omega) := by
      rw [getD_lt (by omega), vadd_getElem j (by omega) (by simpa using h) (by omega), List.getElem_map]
    have ht : IsTernary (e[j]'(by omega)) := het _ (List.getElem_mem _)
    have e2 : q.getD j 0#32 - dot s (cp.getD j []) =
        e[j]'(by omega) + (if j ∈ slots then BitVec.ofNat 32 (2 ^ (32 - params.plaintextBits)) else 0#32) := by
      rw [e1, hj, getD_lt h, BitVec.add_assoc, BitVec.add_comm, BitVec.add_sub_cancel]
    rw [e2]
    by_cases hjs : j ∈ slots
    · simp only [hjs, iff_true, if_true]
      have hD : 2 ^ 2 ≤ 2 ^ (32 - params.plaintextBits) := Nat.pow_le_pow_right (by omega) (by omega)
      have hD' : 2 ^ (32 - params.plaintextBits) ≤ 2 ^ 31 := Nat.pow_le_pow_right (by omega) (by omega)
      have hv : (e[j]'(by omega) + BitVec.ofNat 32 (2 ^ (32 - params.plaintextBits))).toNat =
          ((e[j]'(by omega)).toNat + 2 ^ (32 - params.plaintextBits)) % 2 ^ 32 := by
        rw [BitVec.toNat_add, BitVec.toNat_ofNat, Nat.mod_eq_of_lt (a := 2 ^ (32 - params.plaintextBits)) (by omega)]
      have := ternary_toNat ht
      apply not_ternary_of <;> rw [hv] <;> omega
    · simp only [hjs, if_false, BitVec.add_zero, iff_false, not_not]
      exact ht
  constructor
  · rintro ⟨ha, hb'⟩
    exact (key1 ha).1 hb'
  · intro hj
    have := h4 j hj
    exact ⟨by omega, (key1 (by omega)).2 hj⟩

/-- An attacker's parameters of dimension two, with columns of its choice. -/
def xAttack (lay : Layout) (rhs : List (List U32)) : KVParams := ⟨2, lay.arrayLen, [], rhs, 16, 8, ⟨exSeed, lay.geom⟩⟩

/-- A run of the client up to the query, with the attacker's matrix `[77777777 i, i² + 9]`. -/
def xClient (lay : Layout) (rhs : List (List U32)) (key : Key) : Res (QueryParams FilterParams × List U32) :=
  generateKvQueryParams ((List.range lay.arrayLen).map fun i => [BitVec.ofNat 32 (i * 77777777), BitVec.ofNat 32 (i * i + 9)])
    (xAttack lay rhs) ((List.range (2 + lay.arrayLen)).map fun i => BitVec.ofNat 32 (i * 1000000007 + 2000000000)) >>= fun qt =>
  (qt.1.generateKvQuery .debug key).2 >>= fun q => .ok (qt.1, q)

/-- Non-vacuity: a layout for five keys, zero columns or trap columns, two candidate keys with different masks; what the attacker
reads off is right. -/
example : ∃ lay, bfLayout 5 3 12 = .ok lay ∧ exSeed.length = 32 ∧ width 16 8 = 2 ∧
    masksOf ⟨exSeed, lay.geom⟩ 8 2 [77#64, 78#64, 79#64, 80#64] ≠ masksOf ⟨exSeed, lay.geom⟩ 8 2 [123#64, 0#64, 0#64, 0#64] ∧
    (xClient lay [[0#32, 0#32], [0#32, 0#32]] [77#64, 78#64, 79#64, 80#64] >>= fun qq =>
      qq.1.parseKvRow .debug [0#32, 0#32] [77#64, 78#64, 79#64, 80#64] >>= fun row =>
      .ok (readKey ⟨exSeed, lay.geom⟩ 8 2 [[123#64, 0#64, 0#64, 0#64], [77#64, 78#64, 79#64, 80#64]] row)) =
        .ok (some [77#64, 78#64, 79#64, 80#64]) ∧
    (xClient lay (trapColumns 8 2) [77#64, 78#64, 79#64, 80#64] >>= fun qq =>
      qq.1.parseKvRow .debug [0#32, 0#32] [77#64, 78#64, 79#64, 80#64] >>= fun row =>
      .ok ((masksOf ⟨exSeed, lay.geom⟩ 8 2 [77#64, 78#64, 79#64, 80#64]).map fun mm => readSecret (takeOff 8 mm row))) =
        .ok (some [1#32, BitVec.allOnes 32]) :=
  exOk _ _ (by decide +kernel)

end Chalamet
