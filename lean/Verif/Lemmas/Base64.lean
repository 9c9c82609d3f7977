import Verif.Model.Base64
import Mathlib.Tactic.Ring
import Mathlib.Tactic.Linarith

/-! Lemmas on the base64 codec (helper lemmas). -/

namespace Chalamet

theorem b64Val_char : ∀ v, v < 64 → b64Val (b64Char v) = some v ∧ b64Char v ≠ '=' := by
  decide +kernel

theorem b64Decode_four {x y z w : Char} {rest : List Char} (hw : w ≠ '=') :
    b64Decode (x :: y :: z :: w :: rest) =
      match b64Val x, b64Val y, b64Val z, b64Val w with
      | some vx, some vy, some vz, some vw => do
        let n := ((vx * 64 + vy) * 64 + vz) * 64 + vw
        let bs ← b64Decode rest
        .ok (BitVec.ofNat 8 (n / 65536) :: BitVec.ofNat 8 (n / 256) :: BitVec.ofNat 8 n :: bs)
      | _, _, _, _ => .err .base64 := by
  rw [b64Decode]
  · cases b64Val x <;> cases b64Val y <;> cases b64Val z <;> cases b64Val w <;> rfl
  all_goals (intros; simp_all)

theorem b64Decode_pad2 (x y : Char) : b64Decode [x, y, '=', '='] = b64Tail [x, y] := by
  rw [b64Decode]

theorem b64Decode_pad1 {x y z : Char} (hz : z ≠ '=') :
    b64Decode [x, y, z, '='] = b64Tail [x, y, z] := by
  rw [b64Decode]
  intro h
  simp_all

theorem b64Decode_encode (bs : List U8) : b64Decode (b64Encode bs) = .ok bs := by
  induction bs using b64Encode.induct with
  | case1 => rfl
  | case2 a =>
    have ha := a.isLt
    have h1 := b64Val_char (a.toNat * 16 / 64) (by omega)
    have h2 := b64Val_char (a.toNat * 16 % 64) (by omega)
    rw [b64Encode, b64Decode_pad2, b64Tail]
    simp only [h1.1, h2.1]
    rw [if_pos (by omega)]
    congr 2
    apply BitVec.eq_of_toNat_eq
    rw [BitVec.toNat_ofNat]
    omega
  | case3 a b =>
    have ha := a.isLt
    have hb := b.isLt
    have h1 := b64Val_char ((a.toNat * 256 + b.toNat) * 4 / 4096) (by omega)
    have h2 := b64Val_char ((a.toNat * 256 + b.toNat) * 4 / 64 % 64) (by omega)
    have h3 := b64Val_char ((a.toNat * 256 + b.toNat) * 4 % 64) (by omega)
    rw [b64Encode, b64Decode_pad1 h3.2, b64Tail]
    simp only [h1.1, h2.1, h3.1]
    rw [if_pos (by omega)]
    congr 2
    · apply BitVec.eq_of_toNat_eq
      rw [BitVec.toNat_ofNat]
      omega
    · congr 1
      apply BitVec.eq_of_toNat_eq
      rw [BitVec.toNat_ofNat]
      omega
  | case4 a b c rest ih =>
    have ha := a.isLt
    have hb := b.isLt
    have hc := c.isLt
    have h1 := b64Val_char (((a.toNat * 256 + b.toNat) * 256 + c.toNat) / 262144) (by omega)
    have h2 := b64Val_char (((a.toNat * 256 + b.toNat) * 256 + c.toNat) / 4096 % 64) (by omega)
    have h3 := b64Val_char (((a.toNat * 256 + b.toNat) * 256 + c.toNat) / 64 % 64) (by omega)
    have h4 := b64Val_char (((a.toNat * 256 + b.toNat) * 256 + c.toNat) % 64) (by omega)
    rw [b64Encode, b64Decode_four h4.2]
    simp only [h1.1, h2.1, h3.1, h4.1, ih, Res.bind_ok]
    congr 2
    · apply BitVec.eq_of_toNat_eq
      rw [BitVec.toNat_ofNat]
      omega
    · congr 1
      · apply BitVec.eq_of_toNat_eq
        rw [BitVec.toNat_ofNat]
        omega
      · congr 1
        apply BitVec.eq_of_toNat_eq
        rw [BitVec.toNat_ofNat]
        omega

theorem b64Encode_length (bs : List U8) : (b64Encode bs).length = 4 * ((bs.length + 2) / 3) := by
  induction bs using b64Encode.induct with
  | case1 => rfl
  | case2 a => simp [b64Encode]
  | case3 a b => simp [b64Encode]
  | case4 a b c rest ih =>
    rw [b64Encode]
    simp only [List.length_cons, ih]
    omega

end Chalamet
