import Verif.Lemmas.Codec
import Verif.Model.Bincode

/-! Lemmas on the response serialisation (helper lemmas). -/

namespace Chalamet
open Spec

theorem natToLeBytes_length (n x : Nat) : (natToLeBytes n x).length = n := by
  induction n generalizing x with
  | zero => rfl
  | succ n ih => simp [natToLeBytes, ih]

theorem natToLeBytes_val (n x : Nat) : leNat (natToLeBytes n x) = x % 256 ^ n := by
  induction n generalizing x with
  | zero => simp [natToLeBytes, leNat, Nat.mod_one]
  | succ n ih =>
    simp only [natToLeBytes, leNat, ih, BitVec.toNat_ofNat]
    rw [Nat.pow_succ 256 n, Nat.mul_comm (256 ^ n) 256, Nat.mod_mul]

theorem flatMap_u32_length (v : List U32) : (v.flatMap u32ToLeBytes).length = 4 * v.length := by
  induction v with
  | nil => rfl
  | cons x xs ih =>
    rw [List.flatMap_cons, List.length_append, ih, u32ToLeBytes_length, List.length_cons]; omega

theorem bincodeSerialize_length (v : List U32) : (bincodeSerialize v).length = 8 + 4 * v.length := by
  rw [bincodeSerialize, List.length_append, natToLeBytes_length, flatMap_u32_length]

theorem bincodeElems_ok (v : List U32) (extra : List U8) :
    bincodeElems v.length (v.flatMap u32ToLeBytes ++ extra) = .ok v := by
  induction v with
  | nil => cases extra <;> rfl
  | cons x xs ih =>
    have h : u32ToLeBytes x = [BitVec.ofNat 8 (x.toNat / 2 ^ (8 * 0)),
      BitVec.ofNat 8 (x.toNat / 2 ^ (8 * 1)), BitVec.ofNat 8 (x.toNat / 2 ^ (8 * 2)),
      BitVec.ofNat 8 (x.toNat / 2 ^ (8 * 3))] := rfl
    have h2 := u32FromLeBytes_toLeBytes x
    rw [h] at h2
    rw [List.flatMap_cons, h, List.length_cons]
    simp only [List.cons_append, List.nil_append, bincodeElems, ih, Res.bind_ok, h2]

theorem bincodeElems_short (n : Nat) (bytes : List U8) (h : bytes.length < 4 * n) :
    bincodeElems n bytes = .err .bincode := by
  induction n generalizing bytes with
  | zero => omega
  | succ n ih =>
    match bytes with
    | [] => rfl
    | [_] => rfl
    | [_, _] => rfl
    | [_, _, _] => rfl
    | a :: b :: c :: d :: rest =>
      simp only [bincodeElems]
      rw [ih rest (by simp at h; omega)]
      rfl

theorem bincodeDeserialize_serialize (v : List U32) (extra : List U8) (h : v.length < 2 ^ 64) :
    bincodeDeserialize (bincodeSerialize v ++ extra) = .ok v := by
  unfold bincodeDeserialize
  have hl := bincodeSerialize_length v
  rw [if_neg (by simp; omega)]
  have h8 := natToLeBytes_length 8 v.length
  have e1 : (bincodeSerialize v ++ extra).take 8 = natToLeBytes 8 v.length := by
    rw [bincodeSerialize, List.append_assoc, List.take_append_of_le_length (by omega),
      List.take_of_length_le (by omega)]
  have e2 : (bincodeSerialize v ++ extra).drop 8 = v.flatMap u32ToLeBytes ++ extra := by
    rw [bincodeSerialize, List.append_assoc, List.drop_append_of_le_length (by omega),
      List.drop_of_length_le (by omega)]
    rfl
  have e3 : natFromLeBytes (natToLeBytes 8 v.length) = v.length := by
    rw [natFromLeBytes, natFromLe_eq, natToLeBytes_val]
    exact Nat.mod_eq_of_lt (by omega)
  rw [e1, e2, e3, bincodeElems_ok]

theorem bincodeDeserialize_prefix (v : List U32) (k : Nat) (h : v.length < 2 ^ 64)
    (hk : k < (bincodeSerialize v).length) :
    bincodeDeserialize ((bincodeSerialize v).take k) = .err .bincode := by
  unfold bincodeDeserialize
  have hl := bincodeSerialize_length v
  by_cases h8 : k < 8
  · rw [if_pos (by simp; omega)]
  · rw [if_neg (by simp; omega)]
    have hn := natToLeBytes_length 8 v.length
    have e1 : ((bincodeSerialize v).take k).take 8 = natToLeBytes 8 v.length := by
      rw [List.take_take, Nat.min_eq_left (by omega), bincodeSerialize,
        List.take_append_of_le_length (by omega), List.take_of_length_le (by omega)]
    have e3 : natFromLeBytes (natToLeBytes 8 v.length) = v.length := by
      rw [natFromLeBytes, natFromLe_eq, natToLeBytes_val]
      exact Nat.mod_eq_of_lt (by omega)
    rw [e1, e3]
    apply bincodeElems_short
    simp
    omega

end Chalamet
