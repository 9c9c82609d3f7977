import Verif.Spec
import Verif.Model.Utils
import Mathlib.Tactic.Ring
import Mathlib.Tactic.Linarith

/-! Lemmas on the bit/byte codecs (helper lemmas, not property theorems). -/

namespace Chalamet
open Spec

theorem bitsNat_lt (l : List Bool) : bitsNat l < 2 ^ l.length := by
  induction l with
  | nil => simp [bitsNat]
  | cons b bs ih =>
    simp only [bitsNat, List.length_cons, Nat.pow_succ]
    cases b <;> simp <;> omega

theorem leNat_lt (l : List U8) : leNat l < 256 ^ l.length := by
  induction l with
  | nil => simp [leNat]
  | cons b bs ih =>
    simp only [leNat, List.length_cons, Nat.pow_succ]
    have := b.isLt
    omega

theorem bitsNat_append (l₁ l₂ : List Bool) :
    bitsNat (l₁ ++ l₂) = bitsNat l₁ + 2 ^ l₁.length * bitsNat l₂ := by
  induction l₁ with
  | nil => simp [bitsNat]
  | cons b bs ih =>
    simp only [List.cons_append, bitsNat, ih, List.length_cons]
    ring

theorem leNat_append (l₁ l₂ : List U8) :
    leNat (l₁ ++ l₂) = leNat l₁ + 256 ^ l₁.length * leNat l₂ := by
  induction l₁ with
  | nil => simp [leNat]
  | cons b bs ih =>
    simp only [List.cons_append, leNat, ih, List.length_cons]
    ring

@[simp] theorem bitsNat_replicate_false (k : Nat) : bitsNat (List.replicate k false) = 0 := by
  induction k with
  | zero => rfl
  | succ k ih => simp [List.replicate_succ, bitsNat, ih]

@[simp] theorem leNat_replicate_zero (k : Nat) : leNat (List.replicate k 0#8) = 0 := by
  induction k with
  | zero => rfl
  | succ k ih => simp [List.replicate_succ, leNat, ih]

theorem bitsNat_inj {l₁ l₂ : List Bool} (hl : l₁.length = l₂.length)
    (h : bitsNat l₁ = bitsNat l₂) : l₁ = l₂ := by
  induction l₁ generalizing l₂ with
  | nil => cases l₂ with
    | nil => rfl
    | cons => simp at hl
  | cons b bs ih =>
    cases l₂ with
    | nil => simp at hl
    | cons c cs =>
      simp only [bitsNat] at h
      have h1 : b = c := by
        cases b <;> cases c <;> simp at h ⊢ <;> omega
      subst h1
      rw [ih (by simpa using hl) (by omega)]

theorem leNat_inj {l₁ l₂ : List U8} (hl : l₁.length = l₂.length)
    (h : leNat l₁ = leNat l₂) : l₁ = l₂ := by
  induction l₁ generalizing l₂ with
  | nil => cases l₂ with
    | nil => rfl
    | cons => simp at hl
  | cons b bs ih =>
    cases l₂ with
    | nil => simp at hl
    | cons c cs =>
      simp only [leNat] at h
      have hb := b.isLt
      have hc := c.isLt
      have h1 : b = c := by
        apply BitVec.eq_of_toNat_eq
        omega
      subst h1
      rw [ih (by simpa using hl) (by omega)]

theorem bitsNat_take (l : List Bool) (n : Nat) : bitsNat (l.take n) = bitsNat l % 2 ^ n := by
  rcases Nat.le_total n l.length with hn | hn
  · conv_rhs => rw [← List.take_append_drop n l, bitsNat_append]
    have h1 : (l.take n).length = n := by simp [hn]
    have h2 := bitsNat_lt (l.take n)
    rw [h1] at h2 ⊢
    rw [Nat.add_mul_mod_self_left, Nat.mod_eq_of_lt h2]
  · rw [List.take_of_length_le hn]
    have := bitsNat_lt l
    have h3 : 2 ^ l.length ≤ 2 ^ n := Nat.pow_le_pow_right (by omega) hn
    rw [Nat.mod_eq_of_lt (by omega)]

theorem bitsNat_drop (l : List Bool) (n : Nat) : bitsNat (l.drop n) = bitsNat l / 2 ^ n := by
  rcases Nat.le_total n l.length with hn | hn
  · conv_rhs => rw [← List.take_append_drop n l, bitsNat_append]
    have h1 : (l.take n).length = n := by simp [hn]
    have h2 := bitsNat_lt (l.take n)
    rw [h1] at h2 ⊢
    rw [Nat.add_mul_div_left _ _ (Nat.two_pow_pos n), Nat.div_eq_of_lt h2, Nat.zero_add]
  · rw [List.drop_of_length_le hn]
    have := bitsNat_lt l
    have h3 : 2 ^ l.length ≤ 2 ^ n := Nat.pow_le_pow_right (by omega) hn
    rw [Nat.div_eq_of_lt (by omega)]
    rfl

/-! ### bytes to bits -/

theorem u8ToBitsLe_length (b : U8) : (u8ToBitsLe b).length = 8 := by simp [u8ToBitsLe]

theorem u8ToBitsLe_val (b : U8) : bitsNat (u8ToBitsLe b) = b.toNat := by
  revert b; decide +kernel

theorem bytesToBitsLe_length (bytes : List U8) :
    (bytesToBitsLe bytes).length = 8 * bytes.length := by
  induction bytes with
  | nil => rfl
  | cons b bs ih =>
    have : bytesToBitsLe (b :: bs) = u8ToBitsLe b ++ bytesToBitsLe bs := rfl
    rw [this, List.length_append, ih, u8ToBitsLe_length, List.length_cons]
    omega

theorem bytesToBitsLe_val (bytes : List U8) : bitsNat (bytesToBitsLe bytes) = leNat bytes := by
  induction bytes with
  | nil => rfl
  | cons b bs ih =>
    have : bytesToBitsLe (b :: bs) = u8ToBitsLe b ++ bytesToBitsLe bs := rfl
    rw [this, bitsNat_append, ih, u8ToBitsLe_length, u8ToBitsLe_val, leNat]
    norm_num

/-! ### bits to bytes -/

theorem leNat_set {l : List U8} {j : Nat} {v : U8} (hj : j < l.length) :
    leNat (l.set j v) + 256 ^ j * (l[j]).toNat = leNat l + 256 ^ j * v.toNat := by
  induction l generalizing j with
  | nil => simp at hj
  | cons b bs ih =>
    cases j with
    | zero => simp [leNat]; omega
    | succ j =>
      have := ih (j := j) (by simpa using hj)
      simp only [List.set_cons_succ, leNat, List.getElem_cons_succ, Nat.pow_succ]
      nlinarith

theorem leNat_getElem_le {l : List U8} {j : Nat} (hj : j < l.length) :
    256 ^ j * (l[j]).toNat ≤ leNat l := by
  induction l generalizing j with
  | nil => simp at hj
  | cons b bs ih =>
    cases j with
    | zero => simp [leNat]
    | succ j =>
      have := ih (j := j) (by simpa using hj)
      simp only [leNat, List.getElem_cons_succ, Nat.pow_succ]
      nlinarith

theorem bitsToBytesLe_spec (prof : Profile) (bits : List Bool) :
    ∃ bytes, bitsToBytesLe prof bits = .ok bytes ∧ bytes.length = (bits.length + 7) / 8 ∧
      leNat bytes = bitsNat bits := by
  unfold bitsToBytesLe
  have key := foldRes_inv (f := bitsToBytesStep prof)
    (I := fun done bytes => bytes.length = (bits.length + 7) / 8 ∧
      leNat bytes = bitsNat (bits.take done.length))
    (s := List.replicate ((bits.length + 7) / 8) 0#8)
    (l := (List.range bits.length).zip bits)
    (by simp [bitsNat]) ?_
  · obtain ⟨s', hs', h1, h2⟩ := key
    exact ⟨s', hs', h1, by simpa using h2⟩
  · rintro done ⟨i, b⟩ rest s heq ⟨hlen, hval⟩
    have hk : done.length < bits.length := by
      have := congrArg List.length heq
      simp at this; omega
    have hget : ((List.range bits.length).zip bits)[done.length]? = some (i, b) := by
      rw [← heq]; simp
    have hi : i = done.length ∧ bits[done.length] = b := by
      rw [List.getElem?_eq_getElem (by simpa using hk)] at hget
      simp only [List.getElem_zip, List.getElem_range, Option.some.injEq, Prod.mk.injEq] at hget
      exact ⟨hget.1.symm, hget.2⟩
    obtain ⟨rfl, hb⟩ := hi
    have htake : bitsNat (bits.take (done.length + 1)) =
        bitsNat (bits.take done.length) + 2 ^ done.length * b.toNat := by
      rw [List.take_add_one, List.getElem?_eq_getElem hk, bitsNat_append, hb]
      simp [bitsNat, Nat.min_eq_left (le_of_lt hk)]
    have hlt : leNat s < 2 ^ done.length := by
      rw [hval]
      have := bitsNat_lt (bits.take done.length)
      simpa [Nat.min_eq_left (le_of_lt hk)] using this
    cases b with
    | false =>
      refine ⟨s, by simp [bitsToBytesStep], hlen, ?_⟩
      simp only [List.length_append, List.length_cons, List.length_nil]
      rw [htake, hval]; simp
    | true =>
      have hj : done.length / 8 < s.length := by omega
      set k := done.length with hkdef
      have hpow : 256 ^ (k / 8) * 2 ^ (k % 8) = 2 ^ k := by
        have : (256 : Nat) = 2 ^ 8 := by norm_num
        rw [this, ← Nat.pow_mul, ← Nat.pow_add]
        congr 1; omega
      have hsmall : (s[k / 8]).toNat < 2 ^ (k % 8) := by
        have h1 := leNat_getElem_le hj
        by_contra hcon
        push Not at hcon
        have : 256 ^ (k / 8) * 2 ^ (k % 8) ≤ 256 ^ (k / 8) * (s[k / 8]).toNat :=
          Nat.mul_le_mul_left _ hcon
        omega
      have h7 : 2 ^ (k % 8) ≤ 128 := by
        have : k % 8 ≤ 7 := by omega
        calc 2 ^ (k % 8) ≤ 2 ^ 7 := Nat.pow_le_pow_right (by omega) this
          _ = 128 := by norm_num
      have hmod : (BitVec.ofNat 8 (2 ^ (k % 8))).toNat = 2 ^ (k % 8) := by
        simp only [BitVec.toNat_ofNat]
        apply Nat.mod_eq_of_lt; omega
      have hadd : addC prof s[k / 8] (BitVec.ofNat 8 (2 ^ (k % 8))) =
          .ok (s[k / 8] + BitVec.ofNat 8 (2 ^ (k % 8))) := by
        apply addC_ok
        rw [hmod]; omega
      refine ⟨s.set (k / 8) (s[k / 8] + BitVec.ofNat 8 (2 ^ (k % 8))), ?_, by simpa using hlen, ?_⟩
      · simp only [bitsToBytesStep, if_true, rd_ok hj, Res.bind_ok, hadd, wr_ok hj]
      · simp only [List.length_append, List.length_cons, List.length_nil]
        rw [htake, ← hval]
        have hset := leNat_set (v := s[k / 8] + BitVec.ofNat 8 (2 ^ (k % 8))) hj
        have hv : (s[k / 8] + BitVec.ofNat 8 (2 ^ (k % 8))).toNat =
            (s[k / 8]).toNat + 2 ^ (k % 8) := by
          rw [BitVec.toNat_add, hmod, Nat.mod_eq_of_lt (by omega)]
        rw [hv, Nat.mul_add, hpow] at hset
        simp only [Bool.toNat_true, Nat.mul_one]
        omega

/-! ### 32-bit words -/

theorem natFromLe_eq (bytes : List U8) :
    bytes.foldr (fun b acc => b.toNat + 256 * acc) 0 = leNat bytes := by
  induction bytes with
  | nil => rfl
  | cons b bs ih => simp [leNat, ih]

theorem u32ToLeBytes_length (x : U32) : (u32ToLeBytes x).length = 4 := by simp [u32ToLeBytes]

theorem u32ToLeBytes_val (x : U32) : leNat (u32ToLeBytes x) = x.toNat := by
  have h : u32ToLeBytes x = [BitVec.ofNat 8 (x.toNat / 2 ^ (8 * 0)),
    BitVec.ofNat 8 (x.toNat / 2 ^ (8 * 1)), BitVec.ofNat 8 (x.toNat / 2 ^ (8 * 2)),
    BitVec.ofNat 8 (x.toNat / 2 ^ (8 * 3))] := rfl
  rw [h]
  simp only [leNat, BitVec.toNat_ofNat]
  have := x.isLt
  omega

theorem u32FromLeBytes_toNat {bytes : List U8} (h : bytes.length = 4) :
    (u32FromLeBytes bytes).toNat = leNat bytes := by
  unfold u32FromLeBytes
  rw [natFromLe_eq, BitVec.toNat_ofNat]
  have := leNat_lt bytes
  rw [h] at this
  exact Nat.mod_eq_of_lt (by omega)

theorem u32FromLeBytes_toLeBytes (x : U32) : u32FromLeBytes (u32ToLeBytes x) = x := by
  apply BitVec.eq_of_toNat_eq
  rw [u32FromLeBytes_toNat (u32ToLeBytes_length x), u32ToLeBytes_val]

theorem bitsToU32Le_ok {prof : Profile} {bits : List Bool} (h : bits.length ≤ 32) :
    bitsToU32Le prof bits = .ok (BitVec.ofNat 32 (bitsNat bits)) := by
  obtain ⟨bytes, h1, h2, h3⟩ := bitsToBytesLe_spec prof bits
  have hl : bytes.length ≤ 4 := by omega
  unfold bitsToU32Le
  simp only [h1, Res.bind_ok]
  have h4 : (bytes ++ List.replicate (4 - bytes.length) 0#8).length = 4 := by simp; omega
  rw [if_neg (by omega), u32SizedBytesFromVec, if_pos h4]
  simp only [Res.bind_ok, Res.ok.injEq]
  unfold u32FromLeBytes
  rw [natFromLe_eq, leNat_append]
  simp [h3]

theorem bitsToU32Le_err {prof : Profile} {bits : List Bool} (h : 32 < bits.length) :
    bitsToU32Le prof bits = .err .inputSize := by
  obtain ⟨bytes, h1, h2, h3⟩ := bitsToBytesLe_spec prof bits
  unfold bitsToU32Le
  simp only [h1, Res.bind_ok]
  rw [if_pos (by omega)]

theorem u32Bits_eq (x : U32) : (u32ToLeBytes x).flatMap u8ToBitsLe = bytesToBitsLe (u32ToLeBytes x) :=
  rfl

theorem u32ToBitsLe_ok {x : U32} {n : Nat} (h : n ≤ 32) :
    ∃ bits, u32ToBitsLe x n = .ok bits ∧ bits.length = n ∧ bitsNat bits = x.toNat % 2 ^ n := by
  have hl : (bytesToBitsLe (u32ToLeBytes x)).length = 32 := by
    rw [bytesToBitsLe_length, u32ToLeBytes_length]
  refine ⟨(bytesToBitsLe (u32ToLeBytes x)).take n, ?_, ?_, ?_⟩
  · unfold u32ToBitsLe
    simp only [u32Bits_eq, hl, h, if_true]
  · simp [hl, h]
  · rw [bitsNat_take, bytesToBitsLe_val, u32ToLeBytes_val]

theorem u32ToBitsLe_panic {x : U32} {n : Nat} (h : 32 < n) : u32ToBitsLe x n = .panic := by
  have hl : (bytesToBitsLe (u32ToLeBytes x)).length = 32 := by
    rw [bytesToBitsLe_length, u32ToLeBytes_length]
  unfold u32ToBitsLe
  simp only [u32Bits_eq, hl]
  rw [if_neg (by omega)]

end Chalamet
